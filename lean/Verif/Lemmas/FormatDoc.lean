import Verif.Model.FormatDoc
import Verif.Spec.FormatDoc
import Verif.Lemmas.SrtDoc
import Verif.Lemmas.Builders
import Verif.Props.RoundTrip
/-! Lemmas for C99. -/
namespace Verif.FormatDoc
open Verif Verif.Formats
open Verif.SrtDoc (clear clear_ch replaceAll_clear StampText stampText white_iff)
open Verif.Spec.Fmt
open Verif.Spec.SrtDoc (White Lacks)
open Verif.Spec.FormatDoc

/-! ## Rewriting -/

theorem rewriteAux_id {m : Str → Option (Str × Str)} : ∀ (k : Nat) (s : Str),
    (∀ a c b, s = a ++ c :: b → m (c :: b) = none) → rewriteAux m k s = s
  | 0, _, _ => rfl
  | _ + 1, [], _ => rfl
  | k + 1, c :: s, h => by
    have h0 := h [] c s rfl
    unfold rewriteAux
    rw [h0]
    dsimp only
    rw [rewriteAux_id k s (fun a d b e => h (c :: a) d b (by rw [e]; rfl))]

theorem rewrite_lit {p : Char} {ps : Str} {f : Str → Option (Str × Str)} {s : Str} (h : p ∉ s) :
    rewrite (lit (p :: ps) f) s = s := by
  apply rewriteAux_id
  intro a c b e
  have : ¬ p = c := fun e' => h (by rw [e, e']; simp)
  unfold lit
  simp [stripPrefix, this]

theorem flatMap_congr {α : Type} {f g : α → Str} : ∀ {l : List α}, (∀ t ∈ l, f t = g t) → l.flatMap f = l.flatMap g
  | [], _ => rfl
  | t :: l, h => by rw [List.flatMap_cons, List.flatMap_cons, h t (by simp), flatMap_congr (fun x hx => h x (by simp [hx]))]

/-! ## Tags -/

/-- Tags numbered in the order the replacements are made. -/
def rank : Tok → Nat
  | .ch _ => 0
  | .on .b => 1 | .off .b => 2 | .on .i => 3 | .off .i => 4
  | .on .u => 5 | .off .u => 6 | .on .s => 7 | .off .s => 8

/-- The first `n` replacements done. -/
def up (n : Nat) (t : Tok) : Str := if rank t ≤ n then t.html else t.ass

/-- The first `n` replacements of the way back done. -/
def down (n : Nat) (t : Tok) : Str := if rank t ≤ n then t.ass else t.html

theorem replace_toks {p r : Str} (hp : p ≠ []) (f g : Tok → Str) (toks : List Tok)
    (h : ∀ t ∈ toks, (f t = p ∧ g t = r) ∨ (g t = f t ∧ clear p (f t) = true)) :
    replaceAll p r (toks.flatMap f) = toks.flatMap g := by
  induction toks with
  | nil => rfl
  | cons t l ih =>
    have ih := ih (fun t ht => h t (by simp [ht]))
    rw [List.flatMap_cons, List.flatMap_cons, ← ih]
    rcases h t (by simp) with ⟨e1, e2⟩ | ⟨e1, e2⟩
    · rw [e1, e2, replaceAll_prefix r hp]
    · rw [e1, replaceAll_clear e2]

/-- One replacement acts as wanted on the tags `T`. -/
def stepOk (f g : Tok → Str) (q : Char) (T : List Tok) (pr : Str × Str) : Bool :=
  pr.1.head? == some q &&
  T.all (fun t => (f t == pr.1 && g t == pr.2) || (g t == f t && clear pr.1 (f t)))

/-- All replacements of the table do. -/
def tableOk (f : Nat → Tok → Str) (q : Char) (T : List Tok) : Nat → List (Str × Str) → Bool
  | _, [] => true
  | n, pr :: l => stepOk (f n) (f (n + 1)) q T pr && tableOk f q T (n + 1) l

theorem replaces_table (f : Nat → Tok → Str) (q : Char) (T : List Tok) (hch : ∀ n c, f n (.ch c) = [c]) (toks : List Tok)
    (ht : ∀ t ∈ toks, (∃ c, t = .ch c ∧ c ≠ q) ∨ t ∈ T) : ∀ (tbl : List (Str × Str)) (n : Nat), tableOk f q T n tbl = true →
    replaces tbl (toks.flatMap (f n)) = toks.flatMap (f (n + tbl.length))
  | [], n, _ => rfl
  | (p, r) :: l, n, h => by
    simp only [tableOk, stepOk, Bool.and_eq_true, beq_iff_eq, List.all_eq_true, Bool.or_eq_true] at h
    obtain ⟨⟨h1, h2⟩, h3⟩ := h
    have hp : p ≠ [] := by intro e; rw [e] at h1; simp at h1
    rw [replaces, replace_toks hp (f n) (f (n + 1)) toks, replaces_table f q T hch toks ht l (n + 1) h3, List.length_cons,
      show n + 1 + l.length = n + (l.length + 1) by omega]
    intro t hm
    rcases ht t hm with ⟨c, rfl, hc⟩ | hm
    · refine Or.inr ⟨by rw [hch, hch], ?_⟩
      rw [hch]
      match p, h1 with
      | x :: ps, h1 =>
        simp at h1; subst h1
        exact clear_ch hc
    · exact h2 t hm

/-- All tags, and those of WebVTT. -/
def tags8 : List Tok := [.on .b, .off .b, .on .i, .off .i, .on .u, .off .u, .on .s, .off .s]
def tags6 : List Tok := [.on .b, .off .b, .on .i, .off .i, .on .u, .off .u]

theorem up_ch (n : Nat) (c : Char) : up n (.ch c) = [c] := by simp [up, rank, Tok.html]
theorem down_ch (n : Nat) (c : Char) : down n (.ch c) = [c] := by simp [down, rank, Tok.ass]

theorem mem_tags8 (t : Tok) : (∃ c, t = .ch c) ∨ t ∈ tags8 := by
  cases t with
  | ch c => exact Or.inl ⟨c, rfl⟩
  | on x => exact Or.inr (by cases x <;> decide)
  | off x => exact Or.inr (by cases x <;> decide)

theorem mem_tags6 {l : List Tok} (h : NoStrike l) {t : Tok} (ht : t ∈ l) : (∃ c, t = .ch c) ∨ t ∈ tags6 := by
  cases t with
  | ch c => exact Or.inl ⟨c, rfl⟩
  | on x =>
    cases x with
    | s => exact absurd ht h.1
    | _ => exact Or.inr (by decide)
  | off x =>
    cases x with
    | s => exact absurd ht h.2
    | _ => exact Or.inr (by decide)

/-- Every character is none of these. -/
def Without (q : Char) (l : List Tok) : Prop := ∀ c, Tok.ch c ∈ l → c ≠ q

theorem not_mem_html {q : Char} {l : List Tok} (h : Without q l) (hq : q ∉ ['<', '/', '>', 'b', 'i', 'u', 's']) : q ∉ html l := by
  intro hm
  obtain ⟨t, ht, hc⟩ := List.mem_flatMap.1 hm
  cases t with
  | ch c => simp [Tok.html] at hc; exact h c ht hc.symm
  | on x => apply hq; cases x <;> simp [Tok.html, Sw.letter] at hc ⊢ <;> rcases hc with hc | hc | hc <;> simp [hc]
  | off x => apply hq; cases x <;> simp [Tok.html, Sw.letter] at hc ⊢ <;> rcases hc with hc | hc | hc | hc <;> simp [hc]

theorem not_mem_ass {q : Char} {l : List Tok} (h : Without q l) (hq : q ∉ ['{', '\\', '}', 'b', 'i', 'u', 's', '0', '1']) : q ∉ ass l := by
  intro hm
  obtain ⟨t, ht, hc⟩ := List.mem_flatMap.1 hm
  cases t with
  | ch c => simp [Tok.ass] at hc; exact h c ht hc.symm
  | on x => apply hq; cases x <;> simp [Tok.ass, Sw.letter] at hc ⊢ <;> rcases hc with hc | hc | hc | hc | hc <;> simp [hc]
  | off x => apply hq; cases x <;> simp [Tok.ass, Sw.letter] at hc ⊢ <;> rcases hc with hc | hc | hc | hc | hc <;> simp [hc]

theorem replaceAll_no {p : Char} {ps r s : Str} (h : p ∉ s) : replaceAll (p :: ps) r s = s :=
  replaceAll_lacks (lacks_of_not_mem h)

theorem srtToAss_html {l : List Tok} (h : Without '<' l) : srtToAss (html l) = ass l := by
  have h0 : html l = l.flatMap (down 0) := by unfold html; congr 1; funext t; cases t with | ch c => rfl | on x => cases x <;> rfl | off x => cases x <;> rfl
  have h8 : l.flatMap (down 8) = ass l := by unfold ass; congr 1; funext t; cases t with | ch c => rfl | on x => cases x <;> rfl | off x => cases x <;> rfl
  have e : replaces srtTags (html l) = ass l := by
    rw [h0, replaces_table down '<' tags8 down_ch l ?_ srtTags 0 (by decide)]
    · exact h8
    · intro t ht
      rcases mem_tags8 t with ⟨c, rfl⟩ | h'
      · exact Or.inl ⟨c, rfl, h c ht⟩
      · exact Or.inr h'
  have hn : '<' ∉ ass l := not_mem_ass h (by decide)
  unfold srtToAss
  simp only [e]
  rw [show fontColour = lit ('<' :: "font color=".toList) _ from rfl, rewrite_lit hn,
    show "</font>".toList = '<' :: "/font>".toList from rfl, replaceAll_no hn,
    show fontFace = lit ('<' :: "font face=\"".toList) _ from rfl, rewrite_lit hn]

theorem assToSrt_ass {l : List Tok} (h : Without '{' l) (h' : Without '\\' l) : assToSrt (ass l) = html l := by
  have h0 : ass l = l.flatMap (up 0) := by unfold ass; congr 1; funext t; cases t with | ch c => rfl | on x => cases x <;> rfl | off x => cases x <;> rfl
  have h8 : l.flatMap (up 8) = html l := by unfold html; congr 1; funext t; cases t with | ch c => rfl | on x => cases x <;> rfl | off x => cases x <;> rfl
  have e : replaces assTagsSrt (ass l) = html l := by
    rw [h0, replaces_table up '{' tags8 up_ch l ?_ assTagsSrt 0 (by decide)]
    · exact h8
    · intro t ht
      rcases mem_tags8 t with ⟨c, rfl⟩ | h1
      · exact Or.inl ⟨c, rfl, h c ht⟩
      · exact Or.inr h1
  have hn : '{' ∉ html l := not_mem_html h (by decide)
  have hm : '\\' ∉ html l := not_mem_html h' (by decide)
  unfold assToSrt
  simp only [e]
  rw [show assColour "<font color=\"#".toList "\">".toList = lit ('\\' :: "c&H".toList) _ from rfl, rewrite_lit hm,
    show "{\\c}".toList = '{' :: "\\c}".toList from rfl, replaceAll_no hn,
    show assFont "<font face=\"".toList "\">".toList = lit ('\\' :: "fn".toList) _ from rfl, rewrite_lit hm,
    show assBlock = lit ('{' :: []) _ from rfl, rewrite_lit hn]

theorem vttToAss_html {l : List Tok} (h : Without '<' l) (hs : NoStrike l) : vttToAss (html l) = ass l := by
  have h0 : html l = l.flatMap (down 0) := by unfold html; congr 1; funext t; cases t with | ch c => rfl | on x => cases x <;> rfl | off x => cases x <;> rfl
  have h8 : l.flatMap (down 6) = ass l := by
    unfold ass
    have : ∀ t ∈ l, down 6 t = t.ass := by
      intro t ht
      rcases mem_tags6 hs ht with ⟨c, rfl⟩ | h1
      · rfl
      · revert t; intro t _ h1; simp only [tags6, List.mem_cons, List.not_mem_nil, or_false] at h1
        rcases h1 with rfl | rfl | rfl | rfl | rfl | rfl <;> rfl
    exact flatMap_congr this
  have e : replaces vttTags (html l) = ass l := by
    rw [h0, replaces_table down '<' tags6 down_ch l ?_ vttTags 0 (by decide)]
    · exact h8
    · intro t ht
      rcases mem_tags6 hs ht with ⟨c, rfl⟩ | h'
      · exact Or.inl ⟨c, rfl, h c ht⟩
      · exact Or.inr h'
  have hn : '<' ∉ ass l := not_mem_ass h (by decide)
  unfold vttToAss
  simp only [e]
  rw [show vttClass = lit ('<' :: "c.".toList) _ from rfl, rewrite_lit hn,
    show vttVoice = lit ('<' :: "v".toList) _ from rfl, rewrite_lit hn,
    show vttRuby = lit ('<' :: "ruby>".toList) _ from rfl, rewrite_lit hn,
    show vttStamp = lit ('<' :: []) _ from rfl, rewrite_lit hn]

theorem assToVtt_ass {l : List Tok} (h : Without '{' l) (h' : Without '\\' l) (hs : NoStrike l) : assToVtt (ass l) = html l := by
  have h0 : ass l = l.flatMap (up 0) := by unfold ass; congr 1; funext t; cases t with | ch c => rfl | on x => cases x <;> rfl | off x => cases x <;> rfl
  have h8 : l.flatMap (up 6) = html l := by
    unfold html
    have : ∀ t ∈ l, up 6 t = t.html := by
      intro t ht
      rcases mem_tags6 hs ht with ⟨c, rfl⟩ | h1
      · rfl
      · simp only [tags6, List.mem_cons, List.not_mem_nil, or_false] at h1
        rcases h1 with rfl | rfl | rfl | rfl | rfl | rfl <;> rfl
    exact flatMap_congr this
  have e : replaces assTagsVtt (ass l) = html l := by
    rw [h0, replaces_table up '{' tags6 up_ch l ?_ assTagsVtt 0 (by decide)]
    · exact h8
    · intro t ht
      rcases mem_tags6 hs ht with ⟨c, rfl⟩ | h1
      · exact Or.inl ⟨c, rfl, h c ht⟩
      · exact Or.inr h1
  have hn : '{' ∉ html l := not_mem_html h (by decide)
  have hm : '\\' ∉ html l := not_mem_html h' (by decide)
  unfold assToVtt
  simp only [e]
  rw [show assColour "<c.".toList ">".toList = lit ('\\' :: "c&H".toList) _ from rfl, rewrite_lit hm,
    show "{\\c}".toList = '{' :: "\\c}".toList from rfl, replaceAll_no hn,
    show assFont "<v ".toList ">".toList = lit ('\\' :: "fn".toList) _ from rfl, rewrite_lit hm,
    show "{\\fn}".toList = '{' :: "\\fn}".toList from rfl, replaceAll_no hn,
    show assPos = lit ('\\' :: "pos(".toList) _ from rfl, rewrite_lit hm,
    show assBlock = lit ('{' :: []) _ from rfl, rewrite_lit hn]

/-! ## Texts -/

theorem text_join : ∀ L : List (List Tok), text L = joinStr "\\N".toList (L.map ass)
  | [] => rfl
  | [l] => rfl
  | l :: m :: ls => by
    rw [text, text_join (m :: ls)]; rfl

/-- All pieces, with line feeds between the lines. -/
def nlToks : List (List Tok) → List Tok
  | [] => []
  | [l] => l
  | l :: m :: ls => l ++ .ch '\n' :: nlToks (m :: ls)

theorem nl_html : ∀ L : List (List Tok), html (nlToks L) = joinStr ['\n'] (L.map html)
  | [] => rfl
  | [l] => rfl
  | l :: m :: ls => by
    have ih := nl_html (m :: ls)
    rw [nlToks]
    show (l ++ .ch '\n' :: nlToks (m :: ls)).flatMap Tok.html = _
    rw [List.flatMap_append, List.flatMap_cons]
    show html l ++ (['\n'] ++ html (nlToks (m :: ls))) = _
    rw [ih]; simp [joinStr]

theorem mem_nl : ∀ {L : List (List Tok)} {t : Tok}, t ∈ nlToks L → t = .ch '\n' ∨ ∃ l ∈ L, t ∈ l
  | [], t, h => by simp [nlToks] at h
  | [l], t, h => Or.inr ⟨l, by simp, h⟩
  | l :: m :: ls, t, h => by
    rw [nlToks] at h
    simp only [List.mem_append, List.mem_cons] at h
    rcases h with h | h | h
    · exact Or.inr ⟨l, by simp, h⟩
    · exact Or.inl h
    · rcases mem_nl h with h | ⟨k, hk, hm⟩
      · exact Or.inl h
      · exact Or.inr ⟨k, List.mem_cons_of_mem _ hk, hm⟩

theorem clear_tok {x : Char} (hx : x ∉ ['b', 'i', 'u', 's']) {t : Tok} (h : t ≠ .ch '\\') : clear ['\\', x] t.ass = true := by
  cases t with
  | ch c => exact clear_ch (fun e => h (by rw [e]))
  | on y => cases y <;> simp [clear, SrtDoc.mismatch, Tok.ass, Sw.letter] <;> simp at hx <;> simp [hx]
  | off y => cases y <;> simp [clear, SrtDoc.mismatch, Tok.ass, Sw.letter] <;> simp at hx <;> simp [hx]

theorem replace_ass {x : Char} (hx : x ∉ ['b', 'i', 'u', 's']) {r : Str} : ∀ {l : List Tok}, Without '\\' l → ∀ rest : Str,
    replaceAll ['\\', x] r (ass l ++ rest) = ass l ++ replaceAll ['\\', x] r rest
  | [], _, rest => rfl
  | t :: l, h, rest => by
    have ht : t ≠ .ch '\\' := fun e => h '\\' (by rw [e]; simp) rfl
    show replaceAll _ _ (t.ass ++ ass l ++ rest) = t.ass ++ ass l ++ _
    rw [List.append_assoc, replaceAll_clear (clear_tok hx ht), replace_ass hx (fun c hc => h c (by simp [hc])), List.append_assoc]

theorem replace_breaks : ∀ {L : List (List Tok)}, (∀ l ∈ L, Without '\\' l) →
    replaceAll "\\N".toList ['\n'] (text L) = ass (nlToks L)
  | [], _ => rfl
  | [l], h => by
    have := replace_ass (x := 'N') (by decide) (r := ['\n']) (h l (by simp)) []
    simpa [text, nlToks] using this
  | l :: m :: ls, h => by
    have ih := replace_breaks (L := m :: ls) (fun k hk => h k (List.mem_cons_of_mem _ hk))
    rw [text, nlToks, List.append_assoc]
    rw [show "\\N".toList = ['\\', 'N'] from rfl, replace_ass (by decide) (h l (by simp)), replaceAll_prefix _ (by decide)]
    rw [show "\\N".toList = ['\\', 'N'] from rfl] at ih
    rw [ih]
    simp [ass, Tok.ass]

theorem exportText_eq {conv : Str → Str} {L : List (List Tok)} (h : ∀ l ∈ L, LineOk l)
    (hc : conv (ass (nlToks L)) = html (nlToks L)) : exportText conv (text L) = joinStr ['\n'] (L.map html) := by
  have hb : ∀ l ∈ L, Without '\\' l := fun l hl c hc => ((h l hl).chars c hc).2.2.2
  have hw : Without '\\' (nlToks L) := by
    intro c hm
    rcases mem_nl hm with e | ⟨l, hl, hm⟩
    · cases e; decide
    · exact hb l hl c hm
  unfold exportText
  rw [replace_breaks hb]
  have := replace_ass (x := 'n') (by decide) (r := ['\n']) hw []
  rw [show "\\n".toList = ['\\', 'n'] from rfl]
  rw [List.append_nil] at this
  rw [this, show replaceAll ['\\', 'n'] ['\n'] [] = [] from rfl, List.append_nil, hc, nl_html]

theorem nl_without {q : Char} {L : List (List Tok)} (hq : q ≠ '\n') (h : ∀ l ∈ L, Without q l) : Without q (nlToks L) := by
  intro c hm
  rcases mem_nl hm with e | ⟨l, hl, hm⟩
  · cases e; exact fun e => hq e.symm
  · exact h l hl c hm

theorem nl_noStrike {L : List (List Tok)} (h : ∀ l ∈ L, NoStrike l) : NoStrike (nlToks L) := by
  constructor
  · intro hm
    rcases mem_nl hm with e | ⟨l, hl, hm⟩
    · cases e
    · exact (h l hl).1 hm
  · intro hm
    rcases mem_nl hm with e | ⟨l, hl, hm⟩
    · cases e
    · exact (h l hl).2 hm

theorem exportText_srt {L : List (List Tok)} (h : ∀ l ∈ L, LineOk l) : exportText assToSrt (text L) = joinStr ['\n'] (L.map html) :=
  exportText_eq h (assToSrt_ass (nl_without (by decide) (fun l hl c hc => ((h l hl).chars c hc).2.1))
    (nl_without (by decide) (fun l hl c hc => ((h l hl).chars c hc).2.2.2)))

theorem exportText_vtt {L : List (List Tok)} (h : ∀ l ∈ L, LineOk l) (hs : ∀ l ∈ L, NoStrike l) :
    exportText assToVtt (text L) = joinStr ['\n'] (L.map html) :=
  exportText_eq h (assToVtt_ass (nl_without (by decide) (fun l hl c hc => ((h l hl).chars c hc).2.1))
    (nl_without (by decide) (fun l hl c hc => ((h l hl).chars c hc).2.2.2)) (nl_noStrike hs))

/-! ## Lines -/

theorem blank_iff {l : Str} : blank l = true ↔ Blank l := by
  unfold blank
  rw [List.isEmpty_iff, Parser.trim_eq_nil]
  exact ⟨fun h c hc => (white_iff c).1 (h c hc), fun h c hc => (white_iff c).2 (h c hc)⟩

theorem not_blank {l : Str} (h : ¬ Blank l) : blank l = false := by
  cases e : blank l with
  | false => rfl
  | true => exact absurd (blank_iff.1 e) h

theorem html_not_blank {l : List Tok} (h : LineOk l) : ¬ Blank (html l) := by
  obtain ⟨t, ht, hw⟩ := h.visible
  intro hb
  have sub : ∀ c ∈ t.html, White c := fun c hc => hb c (List.mem_flatMap.2 ⟨t, ht, hc⟩)
  cases t with
  | ch c => exact hw c rfl (sub c (by simp [Tok.html]))
  | on x => exact absurd ((white_iff '<').2 (sub '<' (by simp [Tok.html]))) (by decide)
  | off x => exact absurd ((white_iff '<').2 (sub '<' (by simp [Tok.html]))) (by decide)

theorem html_raw {l : List Tok} (h : LineOk l) : RawLine (html l) := by
  refine ⟨not_mem_html (fun c hc => (h.chars c hc).1) (by decide), ?_⟩
  obtain ⟨t, ht, _⟩ := h.visible
  have hne : l ≠ [] := fun e => by rw [e] at ht; simp at ht
  obtain ⟨t, l', e⟩ : ∃ t l', l = l' ++ [t] := ⟨_, _, (List.dropLast_concat_getLast hne).symm⟩
  subst e
  have hl := h.last
  unfold html
  rw [List.flatMap_append, List.flatMap_singleton, List.getLast?_append]
  cases t with
  | ch x =>
    intro e
    simp [Tok.html] at e hl
    exact hl e
  | on x => simp [Tok.html]
  | off x => simp [Tok.html]

theorem lines_file {eol : Str} (he : Eol eol) : ∀ {ls : List Str}, (∀ l ∈ ls, RawLine l) → lines (file eol ls) = ls
  | [], _ => rfl
  | l :: ls, h => by
    have ih := lines_file he (ls := ls) (fun k hk => h k (by simp [hk]))
    have hl := h l (by simp)
    show lines (l ++ eol ++ file eol ls) = _
    rcases he with rfl | rfl
    · rw [List.append_assoc]
      show lines (l ++ '\n' :: file ['\n'] ls) = _
      rw [lines_append l hl.1, stripCr_of hl.2, ih]
    · have e : l ++ ['\r', '\n'] ++ file ['\r', '\n'] ls = (l ++ ['\r']) ++ '\n' :: file ['\r', '\n'] ls := by simp
      rw [e, lines_append _ (by simp [hl.1]), ih]
      simp [stripCr]

theorem takeWhile_lines {L : List (List Tok)} (h : ∀ l ∈ L, LineOk l) {rest : List Str}
    (hr : ∀ g, rest.head? = some g → Blank g) :
    (L.map html ++ rest).takeWhile (fun l => !blank l) = L.map html ∧
    (L.map html ++ rest).dropWhile (fun l => !blank l) = rest := by
  induction L with
  | nil =>
    cases rest with
    | nil => exact ⟨rfl, rfl⟩
    | cons g r =>
      have := blank_iff.2 (hr g rfl)
      simp [this]
  | cons l L ih =>
    have ih := ih (fun k hk => h k (by simp [hk]))
    have := not_blank (html_not_blank (h l (by simp)))
    simp [this, ih.1, ih.2]

theorem textLines_eq {conv : Str → Str} {L : List (List Tok)} (hne : L ≠ []) (h : ∀ l ∈ L, LineOk l)
    (hc : ∀ l ∈ L, conv (html l) = ass l) {rest : List Str} (hr : ∀ g, rest.head? = some g → Blank g) :
    textLines conv (L.map html ++ rest) = .ok (text L, rest) := by
  obtain ⟨h1, h2⟩ := takeWhile_lines h hr
  unfold textLines
  rw [h1, h2]
  match L, hne with
  | l :: ls, _ =>
    show Outcome.ok (joinStr "\\N".toList (((l :: ls).map html).map conv), rest) = _
    rw [text_join, List.map_map]
    congr 3
    exact List.map_congr_left (fun x hx => hc x hx)

theorem dropWhile_pre {P : Str → Bool} {pre : List Str} (h : ∀ l ∈ pre, P l = true) (x : Str) (rest : List Str) (hx : P x = false) :
    (pre ++ x :: rest).dropWhile P = x :: rest := by
  induction pre with
  | nil => simp [hx]
  | cons l pre ih => simp [h l (by simp), ih (fun k hk => h k (by simp [hk]))]

/-! ## SRT -/

theorem trim_trim (s : Str) : trim (trim s) = trim s :=
  Color.trim_of_edges (fun c hc => SrtDoc.not_white ((InfoCmd.stripped_trim s).1.1 c hc))
    (fun c hc => SrtDoc.not_white ((InfoCmd.stripped_trim s).1.2 c hc))

theorem srt_trim (s : Str) : fmtParseSrt (trim s) = fmtParseSrt s := by
  unfold fmtParseSrt
  rw [trim_trim]

theorem vtt_trim (s : Str) : fmtParseVtt (trim s) = fmtParseVtt s := by
  unfold fmtParseVtt
  rw [trim_trim]

/-- The dialogue line of a subtitle. -/
def said (x : Sub) : Str := dialogue x.start.ass x.stop.ass x.text

theorem srtTimes_eq {a b : Time} (ha : a.Ok) (hb : b.Ok) : srtTimes (a.srt ++ " --> ".toList ++ b.srt) = some (a.ass, b.ass) := by
  have sa : StampText a.srt := stampText (Or.inl rfl) (by have := ha.m; omega) (by have := ha.s; omega) ha.ms
  have sb : StampText b.srt := stampText (Or.inl rfl) (by have := hb.m; omega) (by have := hb.s; omega) hb.ms
  obtain ⟨_, _, _, _, _, hc, t1, t2⟩ := sa.line sb
  have p1 : fmtParseSrt (a.srt ++ [' ']) = some a.ass := by
    rw [← srt_trim, t1]
    exact Props.C31_format_import _ _ _ _ (by have := ha.m; omega) (by have := ha.s; omega) ha.ms
  have p2 : fmtParseSrt (' ' :: b.srt) = some b.ass := by
    rw [← srt_trim, t2]
    exact Props.C31_format_import _ _ _ _ (by have := hb.m; omega) (by have := hb.s; omega) hb.ms
  unfold srtTimes
  rw [if_pos hc, SrtDoc.split_arrow sa.dash sb.dash]
  dsimp only
  rw [p1]
  dsimp only
  rw [p2]

theorem srtSubtitle_eq {x : Sub} (hx : x.Ok) {b : List Str} (hb : SrtBlock x b) {pre rest : List Str}
    (hp : ∀ l ∈ pre, BlankLine l) (hr : ∀ g, rest.head? = some g → Blank g) :
    srtSubtitle (pre ++ b ++ rest) = .ok (said x, rest) := by
  obtain ⟨hpl, n, _, hn, rfl⟩ := hb
  have e : pre ++ (n :: (x.start.srt ++ " --> ".toList ++ x.stop.srt) :: x.lines.map html) ++ rest =
      pre ++ n :: ((x.start.srt ++ " --> ".toList ++ x.stop.srt) :: (x.lines.map html ++ rest)) := by simp
  unfold srtSubtitle
  rw [e, dropWhile_pre (fun l hl => blank_iff.2 (hp l hl).2) n _ (not_blank hn)]
  dsimp only
  rw [srtTimes_eq hx.start hx.stop]
  dsimp only
  rw [textLines_eq hx.text.ne hx.text.lines (fun l hl => srtToAss_html (fun c hc => ((hx.text.lines l hl).chars c hc).2.2.1)) hr]
  unfold said Sub.text
  rw [hpl]
  rfl

theorem dropWhile_nil {P : Str → Bool} {pre : List Str} (h : ∀ l ∈ pre, P l = true) : pre.dropWhile P = [] := by
  induction pre with
  | nil => rfl
  | cons l pre ih => simp [h l (by simp), ih (fun k hk => h k (by simp [hk]))]

theorem srtSubtitle_blank {t : List Str} (h : ∀ l ∈ t, BlankLine l) : srtSubtitle t = .err := by
  unfold srtSubtitle
  rw [dropWhile_nil (fun l hl => blank_iff.2 (h l hl).2)]

/-! ## The loop -/

theorem loop_blank {p : List Str → Outcome (Str × List Str)} {G : Str → Prop} (hp : ∀ t, (∀ l ∈ t, G l) → p t = .err) :
    ∀ (t : List Str) (k : Nat), (∀ l ∈ t, G l) → t.length ≤ k → importLoop p k t = .ok ([], t.length)
  | [], k, _, _ => by cases k <;> rfl
  | l :: t, 0, _, hk => by simp at hk
  | l :: t, k + 1, h, hk => by
    have ih := loop_blank hp t k (fun x hx => h x (by simp [hx])) (by simpa using hk)
    unfold importLoop
    rw [hp _ h]
    dsimp only
    rw [ih]
    rfl

theorem loop_file {p : List Str → Outcome (Str × List Str)} {B : Sub → List Str → Prop} {G : Str → Prop}
    (hg : ∀ t, (∀ l ∈ t, G l) → p t = .err)
    (hb : ∀ x b pre rest, B x b → x.Ok → (∀ l ∈ pre, G l) → (∀ g, rest.head? = some g → Blank g) → p (pre ++ b ++ rest) = .ok (said x, rest))
    (hne : ∀ x b, B x b → b ≠ []) {xs : List Sub} {ls : List Str} {w : Nat} (h : File B G xs ls w) :
    ∀ k, (∀ x ∈ xs, x.Ok) → ls.length ≤ k → importLoop p k ls = .ok (xs.map said, w) := by
  induction h with
  | nil t ht => intro k _ hk; exact loop_blank hg t k ht hk
  | last x b pre hx hp =>
    intro k hok hk
    have hbn := hne x b hx
    have e := hb x b pre [] hx (hok x (by simp)) hp (by simp)
    rw [List.append_nil] at e
    match hl : pre ++ b, k with
    | [], _ => exact absurd (List.append_eq_nil_iff.1 hl).2 hbn
    | l :: ls, 0 => rw [hl] at hk; simp at hk
    | l :: ls, k + 1 =>
      rw [hl] at e
      unfold importLoop
      rw [e]
      dsimp only
      cases k <;> rfl
  | cons x b xs g rest w pre hx hp hgb hf ih =>
    intro k hok hk
    have hbn := hne x b hx
    have e := hb x b pre (g :: rest) hx (hok x (by simp)) hp (by intro y hy; simp at hy; rw [← hy]; exact hgb.2)
    have hlen : (g :: rest).length + 1 ≤ k := by
      have : 1 ≤ b.length := List.length_pos_iff.2 hbn
      simp only [List.length_append] at hk
      omega
    match hl : pre ++ b ++ g :: rest, k with
    | [], _ => simp at hl
    | _ :: _, 0 => omega
    | l :: ls, k + 1 =>
      rw [hl] at e
      unfold importLoop
      rw [e]
      dsimp only
      rw [ih k (fun y hy => hok y (by simp [hy])) (by omega)]
      rfl

theorem file_raw {B : Sub → List Str → Prop} {G : Str → Prop} (hG : ∀ l, G l → RawLine l)
    (hB : ∀ x b, B x b → x.Ok → ∀ l ∈ b, RawLine l) {xs : List Sub} {ls : List Str} {w : Nat} (h : File B G xs ls w) :
    (∀ x ∈ xs, x.Ok) → ∀ l ∈ ls, RawLine l := by
  induction h with
  | nil t ht => intro _ l hl; exact hG l (ht l hl)
  | last x b pre hx hp =>
    intro hok l hl
    rcases List.mem_append.1 hl with hl | hl
    · exact hG l (hp l hl)
    · exact hB x b hx (hok x (by simp)) l hl
  | cons x b xs g rest w pre hx hp hgb hf ih =>
    intro hok l hl
    rcases List.mem_append.1 hl with hl | hl
    · rcases List.mem_append.1 hl with hl | hl
      · exact hG l (hp l hl)
      · exact hB x b hx (hok x (by simp)) l hl
    · exact ih (fun y hy => hok y (by simp [hy])) l hl

theorem srtBlock_raw {x : Sub} {b : List Str} (hb : SrtBlock x b) (hx : x.Ok) : ∀ l ∈ b, RawLine l := by
  obtain ⟨_, n, hn, _, rfl⟩ := hb
  have sa : StampText x.start.srt := stampText (Or.inl rfl) (by have := hx.start.m; omega) (by have := hx.start.s; omega) hx.start.ms
  have sb : StampText x.stop.srt := stampText (Or.inl rfl) (by have := hx.stop.m; omega) (by have := hx.stop.s; omega) hx.stop.ms
  intro l hl
  simp only [List.mem_cons, List.mem_map] at hl
  rcases hl with rfl | rfl | ⟨t, ht, rfl⟩
  · exact hn
  · refine ⟨(sa.line sb).2.2.1, ?_⟩
    have := (sa.line sb).2.2.2.1
    intro e
    have hl : (x.start.srt ++ " --> ".toList ++ x.stop.srt).getLast? = x.stop.srt.getLast? := by
      have := List.getLast?_eq_some_getLast sb.ne
      rw [List.getLast?_append, this]; rfl
    rw [hl] at e
    exact absurd (sb.last _ e) (by decide)
  · exact html_raw (hx.text.lines t ht)

theorem srtDialogues_eq {eol : Str} (he : Eol eol) {xs : List Sub} {ls : List Str} {w : Nat} (h : SrtFile xs ls w)
    (hok : ∀ x ∈ xs, x.Ok) : srtDialogues (file eol ls) = .ok (xs.map said, w) := by
  have hraw : ∀ l ∈ ls, RawLine l := file_raw (fun l hl => hl.1) (fun x b hb hx => srtBlock_raw hb hx) h hok
  unfold srtDialogues
  simp only
  rw [lines_file he hraw]
  refine loop_file (fun t ht => srtSubtitle_blank ht) (fun x b pre rest hb hx hp hr => srtSubtitle_eq hx hb hp hr) ?_ h _ hok (Nat.le_refl _)
  rintro x b ⟨_, n, _, _, rfl⟩
  simp

/-! ## WebVTT -/

/-- A time stamp of WebVTT as a text. -/
structure VttText (x : Str) : Prop where
  ne : x ≠ []
  chars : ∀ c ∈ x, c.isDigit = true ∨ c = ':' ∨ c = '.'

theorem VttText.ws {x : Str} (h : VttText x) : ∀ c ∈ x, isWs c = false := by
  intro c hc
  rcases h.chars c hc with h | rfl | rfl
  · exact isWs_of_digit h
  · decide
  · decide

theorem VttText.no {x : Str} (h : VttText x) {d : Char} (hd : d.isDigit = false) (h1 : d ≠ ':') (h2 : d ≠ '.') : d ∉ x := by
  intro hm
  rcases h.chars d hm with h | h | h
  · rw [hd] at h; cases h
  · exact h1 h
  · exact h2 h

theorem vtt_stamp {t : Time} (ht : t.Ok) {x : Str} (h : t.Vtt x) : VttText x ∧ fmtParseVtt x = some t.ass := by
  have hm : t.m < 100 := by have := ht.m; omega
  have hs : t.s < 100 := by have := ht.s; omega
  rcases h with rfl | ⟨h0, rfl⟩
  · refine ⟨?_, Props.C32_format_import _ _ _ _ hm hs ht.ms⟩
    rw [stamp_eq hm hs ht.ms]
    refine ⟨by simp, ?_⟩
    intro c hc
    simp only [List.mem_append, List.mem_cons] at hc
    rcases hc with ((hc | hc | hc) | hc | hc) | hc | hc
    · exact Or.inl (showPad_digits _ _ c hc)
    · exact Or.inr (Or.inl hc)
    · exact Or.inl (showPad_digits _ _ c hc)
    · exact Or.inr (Or.inl hc)
    · exact Or.inl (showPad_digits _ _ c hc)
    · exact Or.inr (Or.inr hc)
    · exact Or.inl (showPad_digits _ _ c hc)
  · refine ⟨?_, ?_⟩
    · rw [shortStamp_eq hm hs ht.ms]
      refine ⟨by simp, ?_⟩
      intro c hc
      simp only [List.mem_append, List.mem_cons] at hc
      rcases hc with (hc | hc | hc) | hc | hc
      · exact Or.inl (showPad_digits _ _ c hc)
      · exact Or.inr (Or.inl hc)
      · exact Or.inl (showPad_digits _ _ c hc)
      · exact Or.inr (Or.inr hc)
      · exact Or.inl (showPad_digits _ _ c hc)
    · rw [Props.C32_format_import_short _ _ _ hm hs ht.ms]
      unfold Time.ass
      rw [h0]

/-- What a setting looks like: no dash, no line feed, and the words it gives. -/
theorem setting_words {o : Option Nat} {set : Str} (h : Setting o set) :
    '-' ∉ set ∧ '\n' ∉ set ∧ (∀ c, set.getLast? = some c → isWs c = false) ∧ ∀ z : Str, splitWsAux z set = if z = [] then splitWs set else z.reverse :: splitWs set := by
  cases h with
  | none => refine ⟨by simp, by simp, by simp, fun z => by by_cases e : z = [] <;> simp [e, splitWs, splitWsAux]⟩
  | align a n h =>
    have h' : a = "start".toList ∨ a = "left".toList ∨ a = "center".toList ∨ a = "middle".toList ∨ a = "end".toList ∨ a = "right".toList := by
      simp only [places, List.mem_cons, Prod.mk.injEq, List.not_mem_nil, or_false] at h
      rcases h with h | h | h | h | h | h <;> simp [h.1]
    have key : ∀ r z : Str, splitWsAux z (' ' :: r) = if z = [] then splitWs (' ' :: r) else z.reverse :: splitWs (' ' :: r) := by
      intro r z
      by_cases e : z = []
      · subst e; rfl
      · have : isWs ' ' = true := by decide
        simp [splitWs, splitWsAux, this, e]
    rcases h' with rfl | rfl | rfl | rfl | rfl | rfl
    all_goals exact ⟨by decide, by decide, by intro c hc; simp at hc; subst hc; decide, key _⟩

theorem splitWs_word {w : Str} (hw : ∀ c ∈ w, isWs c = false) : ∀ (z rest : Str), splitWsAux z (w ++ rest) = splitWsAux (w.reverse ++ z) rest := by
  induction w with
  | nil => intro z rest; rfl
  | cons c w ih =>
    intro z rest
    have hc := hw c (by simp)
    rw [List.cons_append, splitWsAux, hc]
    simp only [Bool.false_eq_true, if_false]
    rw [ih (fun d hd => hw d (by simp [hd]))]
    simp

theorem setting_place {o : Option Nat} {set : Str} (h : Setting o set) (coord : Nat → Str → Option Nat) :
    positioning coord (cueSettings (splitWs set) []) = placeTag o := by
  cases h with
  | none => rfl
  | align a n h =>
    simp only [places, List.mem_cons, Prod.mk.injEq, List.not_mem_nil, or_false] at h
    rcases h with ⟨rfl, rfl⟩ | ⟨rfl, rfl⟩ | ⟨rfl, rfl⟩ | ⟨rfl, rfl⟩ | ⟨rfl, rfl⟩ | ⟨rfl, rfl⟩
    all_goals (simp only [placeTag, Nat.toDigits]; rfl)

theorem vttTimed_eq {x : Sub} (hx : x.Ok) (hs : ∀ l ∈ x.lines, NoStrike l) {a z set : Str} (ha : x.start.Vtt a) (hz : x.stop.Vtt z)
    (hset : Setting x.place set) (coord : Nat → Str → Option Nat) {rest : List Str} (hr : ∀ g, rest.head? = some g → Blank g) :
    vttTimed coord (a ++ " --> ".toList ++ z ++ set) (x.lines.map html ++ rest) = .ok (said x, rest) := by
  obtain ⟨ta, pa⟩ := vtt_stamp hx.start ha
  obtain ⟨tz, pz⟩ := vtt_stamp hx.stop hz
  obtain ⟨s1, _, _, s3⟩ := setting_words hset
  have hd : '-' ∉ z ++ set := by simp [tz.no (d := '-') (by decide) (by decide) (by decide), s1]
  have p1 : fmtParseVtt (a ++ [' ']) = some x.start.ass := by
    rw [← vtt_trim, ← pa, ← vtt_trim a]
    have e1 : trim (a ++ [' ']) = a := by
      have := Color.trim_pad (w1 := []) (w2 := [' ']) (s := a) (by simp) (by simp; decide) ta.ne
        (fun c hc => ta.ws c (List.mem_of_head? hc)) (fun c hc => ta.ws c (List.mem_of_getLast? hc))
      simpa using this
    have e2 : trim a = a := Color.trim_of_edges
        (fun c hc => ta.ws c (List.mem_of_head? hc)) (fun c hc => ta.ws c (List.mem_of_getLast? hc))
    rw [e1, e2]
  have w : splitWs (' ' :: (z ++ set)) = z :: splitWs set := by
    show splitWsAux [] (' ' :: (z ++ set)) = _
    have : isWs ' ' = true := by decide
    rw [splitWsAux, this]
    simp only [if_true]
    rw [splitWs_word tz.ws, List.append_nil, s3, if_neg (by simpa using tz.ne), List.reverse_reverse]
  unfold vttTimed
  rw [List.append_assoc, SrtDoc.split_arrow (ta.no (by decide) (by decide) (by decide)) hd]
  dsimp only
  rw [p1]
  dsimp only
  rw [w]
  dsimp only
  rw [pz]
  dsimp only
  rw [textLines_eq hx.text.ne hx.text.lines (fun l hl => vttToAss_html (fun c hc => ((hx.text.lines l hl).chars c hc).2.2.1) (hs l hl)) hr,
    setting_place hset]
  rfl

/-! ### Lines between cues -/

theorem trim_prefix {w p t : Str} (hw : ∀ c ∈ w, White c) (hp : p ≠ []) (h1 : ∀ c, p.head? = some c → ¬ White c)
    (h2 : ∀ c, p.getLast? = some c → ¬ White c) : ∃ t', trim (w ++ p ++ t) = p ++ t' := by
  obtain ⟨⟨hx1, hx2⟩, a, b, e, ha, hb⟩ := InfoCmd.stripped_trim (w ++ p ++ t)
  generalize trim (w ++ p ++ t) = x at *
  have hlast := h2 _ (List.getLast?_eq_some_getLast hp)
  obtain ⟨q, p', rfl⟩ : ∃ q p', p = q :: p' := by
    cases p with
    | nil => exact absurd rfl hp
    | cons q p' => exact ⟨_, _, rfl⟩
  have hq : ¬ White q := h1 q rfl
  have ew : w = a := by
    rw [List.append_assoc, List.append_assoc] at e
    rcases List.append_eq_append_iff.1 e with ⟨u, e1, e2⟩ | ⟨u, e1, e2⟩
    · cases u with
      | nil => simpa using e1.symm
      | cons v u =>
        have : q = v := (List.cons.inj e2).1
        exact absurd (ha q (by rw [e1, this]; simp)) hq
    · cases u with
      | nil => simpa using e1
      | cons v u =>
        cases x with
        | nil =>
          exact absurd (hb q (by rw [List.nil_append] at e2; rw [e2]; simp)) hq
        | cons y x =>
          have : y = v := (List.cons.inj e2).1
          exact absurd (hw y (by rw [e1, this]; simp)) (hx1 y rfl)
  subst ew
  rw [List.append_assoc, List.append_assoc] at e
  have e := List.append_cancel_left e
  rcases List.append_eq_append_iff.1 e with ⟨u, e1, _⟩ | ⟨u, e1, e2⟩
  · exact ⟨u, e1⟩
  · cases u with
    | nil => exact ⟨[], by rw [e1]; simp⟩
    | cons v u =>
      exfalso
      apply hlast
      apply hb
      rw [e2]
      have : (q :: p').getLast hp = (v :: u).getLast (by simp) := by
        have e3 : (q :: p').getLast? = (v :: u).getLast? := by
          rw [e1, List.getLast?_append, List.getLast?_eq_some_getLast (by simp : v :: u ≠ [])]; rfl
        rw [List.getLast?_eq_some_getLast hp, List.getLast?_eq_some_getLast (by simp : v :: u ≠ [])] at e3
        exact Option.some.inj e3
      rw [this]
      exact List.mem_append_left _ (List.getLast_mem _)

theorem not_white_of {c : Char} (h : isWs c = false) : ¬ White c := fun hw => by
  rw [(white_iff c).2 hw] at h; cases h

theorem between_skipped {l : Str} (h : Between l) : vttSkipped l = true := by
  unfold vttSkipped
  rcases h.2 with h | ⟨w, t, hw, rfl⟩
  · rw [blank_iff.2 h]; rfl
  · obtain ⟨t', e⟩ := trim_prefix (w := w) (p := "NOTE".toList) (t := t) hw (by decide)
      (by intro c hc; simp at hc; subst hc; exact not_white_of (by decide))
      (by intro c hc; simp at hc; subst hc; exact not_white_of (by decide))
    rw [e]
    have : startsWith "NOTE".toList ("NOTE".toList ++ t') = true := startsWith_iff.2 ⟨t', rfl⟩
    rw [this, Bool.or_true]

theorem skipped_between {l : Str} (hr : RawLine l) (h : vttSkipped l = true) : Between l := by
  unfold vttSkipped at h
  rw [Bool.or_eq_true] at h
  refine ⟨hr, ?_⟩
  rcases h with h | h
  · exact Or.inl (blank_iff.1 h)
  · obtain ⟨t, e⟩ := startsWith_iff.1 h
    obtain ⟨_, a, b, e', ha, _⟩ := InfoCmd.stripped_trim l
    rw [e] at e'
    exact Or.inr ⟨a, t ++ b, ha, by rw [e']; simp⟩

theorem name_not_skipped {l : Str} (h : CueName l) : vttSkipped l = false := by
  cases e : vttSkipped l with
  | false => rfl
  | true => exact absurd (skipped_between h.2.1 e) h.1

/-- The time line. -/
theorem time_line {x : Sub} (hx : x.Ok) {a z set : Str} (ha : x.start.Vtt a) (hz : x.stop.Vtt z) (hset : Setting x.place set) :
    vttSkipped (a ++ " --> ".toList ++ z ++ set) = false ∧ containsStr "-->".toList (a ++ " --> ".toList ++ z ++ set) = true ∧
    RawLine (a ++ " --> ".toList ++ z ++ set) := by
  obtain ⟨ta, _⟩ := vtt_stamp hx.start ha
  obtain ⟨tz, _⟩ := vtt_stamp hx.stop hz
  obtain ⟨_, s2, s4, _⟩ := setting_words hset
  obtain ⟨d, r, rfl⟩ : ∃ d r, a = d :: r := by
    cases a with
    | nil => exact absurd rfl ta.ne
    | cons d r => exact ⟨_, _, rfl⟩
  have hd : isWs d = false := ta.ws d (by simp)
  have hl : ∀ c, (d :: r ++ " --> ".toList ++ z ++ set).getLast? = some c → isWs c = false := by
    intro c hc
    rw [List.getLast?_append] at hc
    cases hs : set.getLast? with
    | some y => rw [hs] at hc; simp at hc; subst hc; exact s4 y hs
    | none =>
      rw [hs, List.getLast?_append, List.getLast?_eq_some_getLast tz.ne] at hc
      simp at hc
      subst hc
      exact tz.ws _ (List.getLast_mem _)
  have ht : trim (d :: r ++ " --> ".toList ++ z ++ set) = d :: r ++ " --> ".toList ++ z ++ set :=
    Color.trim_of_edges (by intro c hc; simp at hc; subst hc; exact hd) hl
  refine ⟨?_, ?_, ?_, ?_⟩
  · unfold vttSkipped blank
    rw [ht]
    have hn : d ≠ 'N' := fun e => ta.no (d := 'N') (by decide) (by decide) (by decide) (by rw [e]; simp)
    have : startsWith "NOTE".toList (d :: r ++ " --> ".toList ++ z ++ set) = false := by
      cases e : startsWith "NOTE".toList (d :: r ++ " --> ".toList ++ z ++ set) with
      | false => rfl
      | true =>
        obtain ⟨t, e'⟩ := startsWith_iff.1 e
        exact absurd (List.cons.inj e').1 hn
    rw [this]; rfl
  · rw [containsStr_iff]
    exact ⟨d :: r ++ [' '], ' ' :: (z ++ set), by simp⟩
  · have h1 := ta.no (d := '\n') (by decide) (by decide) (by decide)
    have h2 := tz.no (d := '\n') (by decide) (by decide) (by decide)
    simp only [List.mem_append, not_or]
    exact ⟨⟨⟨h1, by decide⟩, h2⟩, s2⟩
  · intro e
    exact absurd (hl _ e) (by decide)

theorem cue_timed {x : Sub} (hx : x.Ok) (hs : ∀ l ∈ x.lines, NoStrike l) {a z set : Str} (ha : x.start.Vtt a) (hz : x.stop.Vtt z)
    (hset : Setting x.place set) (coord : Nat → Str → Option Nat) (k : Nat) {pre rest : List Str} (hp : ∀ l ∈ pre, Between l)
    (hr : ∀ g, rest.head? = some g → Blank g) :
    vttCueAux coord (k + 1) (pre ++ (a ++ " --> ".toList ++ z ++ set) :: (x.lines.map html ++ rest)) = .ok (said x, rest) := by
  obtain ⟨h1, h2, _⟩ := time_line hx ha hz hset
  unfold vttCueAux
  rw [dropWhile_pre (fun l hl => between_skipped (hp l hl)) _ _ h1]
  dsimp only
  rw [if_pos h2, vttTimed_eq hx hs ha hz hset coord hr]

theorem vttCue_eq {x : Sub} (hx : x.Ok) {b : List Str} (hb : VttBlock x b) (coord : Nat → Str → Option Nat) {pre rest : List Str}
    (hp : ∀ l ∈ pre, Between l) (hr : ∀ g, rest.head? = some g → Blank g) :
    vttCue coord (pre ++ b ++ rest) = .ok (said x, rest) := by
  obtain ⟨hs, n, a, z, set, hn, ha, hz, hset, rfl⟩ := hb
  unfold vttCue
  rcases hn with rfl | ⟨l, rfl, hl⟩
  · have e : pre ++ ([] ++ (a ++ " --> ".toList ++ z ++ set) :: x.lines.map html) ++ rest =
        pre ++ (a ++ " --> ".toList ++ z ++ set) :: (x.lines.map html ++ rest) := by simp
    rw [e]
    exact cue_timed hx hs ha hz hset coord _ hp hr
  · have e : pre ++ ([l] ++ (a ++ " --> ".toList ++ z ++ set) :: x.lines.map html) ++ rest =
        pre ++ l :: ((a ++ " --> ".toList ++ z ++ set) :: (x.lines.map html ++ rest)) := by simp
    obtain ⟨h1, h2, _⟩ := time_line hx ha hz hset
    rw [e]
    generalize hk : (pre ++ l :: ((a ++ " --> ".toList ++ z ++ set) :: (x.lines.map html ++ rest))).length = k
    obtain ⟨k', rfl⟩ : ∃ k', k = k' + 1 := ⟨k - 1, by simp only [List.length_append, List.length_cons] at hk; omega⟩
    rw [vttCueAux, dropWhile_pre (fun l hl => between_skipped (hp l hl)) _ _ (name_not_skipped hl)]
    dsimp only
    have hc : containsStr "-->".toList l = false := containsStr_false.2 hl.2.2
    rw [hc]
    simp only [Bool.false_eq_true, if_false]
    rw [if_pos h2]
    have := cue_timed hx hs ha hz hset coord k' (pre := []) (by simp) hr
    rw [List.nil_append] at this
    exact this

theorem vttCue_between {t : List Str} (h : ∀ l ∈ t, Between l) (coord : Nat → Str → Option Nat) : vttCue coord t = .err := by
  unfold vttCue vttCueAux
  rw [dropWhile_nil (fun l hl => between_skipped (h l hl))]

theorem vttBlock_raw {x : Sub} {b : List Str} (hb : VttBlock x b) (hx : x.Ok) : ∀ l ∈ b, RawLine l := by
  obtain ⟨hs, n, a, z, set, hn, ha, hz, hset, rfl⟩ := hb
  intro l hl
  simp only [List.mem_append, List.mem_cons, List.mem_map] at hl
  rcases hl with hl | rfl | ⟨t, ht, rfl⟩
  · rcases hn with rfl | ⟨k, rfl, hk⟩
    · simp at hl
    · simp at hl; subst hl; exact hk.2.1
  · exact (time_line hx ha hz hset).2.2
  · exact html_raw (hx.text.lines t ht)

theorem vtt_loop (coord : Nat → Str → Option Nat) {xs : List Sub} {ls : List Str} {w : Nat} (h : VttFile xs ls w)
    (hok : ∀ x ∈ xs, x.Ok) (k : Nat) (hk : ls.length ≤ k) : importLoop (vttCue coord) k ls = .ok (xs.map said, w) := by
  refine loop_file (fun t ht => vttCue_between ht coord) (fun x b pre rest hb hx hp hr => vttCue_eq hx hb coord hp hr) ?_ h _ hok hk
  rintro x b ⟨_, n, a, z, set, _, _, _, _, rfl⟩
  simp

theorem vttFile_raw {xs : List Sub} {ls : List Str} {w : Nat} (h : VttFile xs ls w) (hok : ∀ x ∈ xs, x.Ok) : ∀ l ∈ ls, RawLine l :=
  file_raw (fun l hl => hl.1) (fun x b hb hx => vttBlock_raw hb hx) h hok

theorem vttDialogues_eq (coord : Nat → Str → Option Nat) {eol : Str} (he : Eol eol) {xs : List Sub} {ls : List Str} {w : Nat}
    (h : VttFile xs ls w) (hok : ∀ x ∈ xs, x.Ok) {hd t : Str} (hraw : RawLine hd) (hh : hd = "WEBVTT".toList ++ t) :
    vttDialogues coord (file eol (hd :: ls)) = .ok (xs.map said, w) := by
  unfold vttDialogues
  rw [lines_file he (by
    intro l hl
    rcases List.mem_cons.1 hl with rfl | hl
    · exact hraw
    · exact vttFile_raw h hok l hl)]
  dsimp only
  obtain ⟨t', e⟩ := trim_prefix (w := []) (p := "WEBVTT".toList) (t := t) (by simp) (by decide)
    (by intro c hc; simp at hc; subst hc; exact not_white_of (by decide))
    (by intro c hc; simp at hc; subst hc; exact not_white_of (by decide))
  rw [List.nil_append] at e
  rw [if_pos (show startsWith "WEBVTT".toList (trim hd) = true by rw [hh, e]; exact startsWith_iff.2 ⟨t', rfl⟩)]
  exact vtt_loop coord h hok _ (Nat.le_refl _)

theorem vttDialogues_headless (coord : Nat → Str → Option Nat) {eol : Str} (he : Eol eol) {xs : List Sub} {l : Str} {ls : List Str} {w : Nat}
    (h : VttFile xs (l :: ls) w) (hok : ∀ x ∈ xs, x.Ok) (hh : ∀ a t, (∀ c ∈ a, White c) → l ≠ a ++ "WEBVTT".toList ++ t) :
    vttDialogues coord (file eol (l :: ls)) = .ok (xs.map said, w + 1) := by
  unfold vttDialogues
  rw [lines_file he (vttFile_raw h hok)]
  dsimp only
  have : startsWith "WEBVTT".toList (trim l) = false := by
    cases e : startsWith "WEBVTT".toList (trim l) with
    | false => rfl
    | true =>
      obtain ⟨t, e⟩ := startsWith_iff.1 e
      obtain ⟨_, a, b, e', ha, _⟩ := InfoCmd.stripped_trim l
      rw [e] at e'
      exact absurd e' (by rw [List.append_assoc, List.append_assoc, ← List.append_assoc a]; exact hh a (t ++ b) ha)
  rw [this]
  simp only [Bool.false_eq_true, if_false]
  rw [vtt_loop coord h hok (ls.length + 1) (by simp)]

/-! ## The script -/

open Verif.Parser (toAss Section Script Span parse)
open Verif.Spec.RoundTrip
open Verif.Spec.Lines

theorem text_ne {L : List (List Tok)} (h : TextOk L) : text L ≠ [] := by
  have key : ∀ {l : List Tok}, LineOk l → ass l ≠ [] := by
    intro l hl
    obtain ⟨t, ht, _⟩ := hl.visible
    match l, ht with
    | t :: l, _ => cases t <;> simp [ass, Tok.ass]
  match L, h.ne, h.lines with
  | [l], _, hl => exact key (hl l (by simp))
  | l :: m :: ls, _, hl => simp [text]

theorem text_line : ∀ {L : List (List Tok)}, (∀ l ∈ L, LineOk l) → '\n' ∉ text L
  | [], _ => by simp [text]
  | [l], h => not_mem_ass (fun c hc => ((h l (by simp)).chars c hc).1) (by decide)
  | l :: m :: ls, h => by
    have h1 := not_mem_ass (fun c hc => ((h l (by simp)).chars c hc).1) (q := '\n') (by decide)
    have h2 := text_line (L := m :: ls) (fun k hk => h k (List.mem_cons_of_mem _ hk))
    rw [text]
    simp only [List.mem_append, not_or]
    exact ⟨⟨h1, by decide⟩, h2⟩

theorem digit_not_white {c : Char} (h : c.isDigit = true) : ¬ White c := not_white_of (isWs_of_digit h)

theorem ass_time_plain {t : Time} (h : t.Ok) : Verif.Spec.EventCmd.Plain t.ass ∧ '\n' ∉ t.ass := by
  unfold Time.ass
  rw [assStamp_eq (by have := h.m; omega) (by have := h.s; omega) (by have := h.ms; omega)]
  have no : ∀ d : Char, d.isDigit = false → d ≠ ':' → d ≠ '.' →
      d ∉ showNat t.h ++ ':' :: showPad 2 t.m ++ ':' :: showPad 2 t.s ++ '.' :: showPad 2 (t.ms / 10) := by
    intro d hd h1 h2
    simp only [List.mem_append, List.mem_cons, not_or]
    exact ⟨⟨⟨showNat_no _ _ hd, h1, showPad_no _ _ _ hd⟩, h1, showPad_no _ _ _ hd⟩, h2, showPad_no _ _ _ hd⟩
  refine ⟨⟨no ',' (by decide) (by decide) (by decide), ?_, ?_⟩, no '\n' (by decide) (by decide) (by decide)⟩
  · intro c hc
    cases e : showNat t.h with
    | nil => exact absurd e (showNat_ne_nil _)
    | cons d r =>
      rw [e] at hc; simp at hc; subst hc
      exact digit_not_white (showNat_digits t.h d (by rw [e]; simp))
  · intro c hc
    have hl : (showPad 2 (t.ms / 10)).getLast? = some ((showPad 2 (t.ms / 10)).getLast (showPad_ne_nil _ _)) := List.getLast?_eq_some_getLast _
    rw [List.getLast?_append, List.getLast?_cons, hl] at hc
    simp at hc
    rw [← hc]
    exact digit_not_white (showPad_digits _ _ _ (List.getLast_mem _))

theorem place_line {o : Option Nat} : '\n' ∉ placeTag o := by
  cases o with
  | none => simp [placeTag]
  | some n =>
    have := showNat_no n '\n' (by decide)
    unfold showNat at this
    simp only [placeTag, List.mem_append, not_or]
    exact ⟨⟨by decide, this⟩, by decide⟩

theorem event_fits {x : Sub} (hx : x.Ok) : EventFits usualEvent x.event := by
  have p0 : Verif.Spec.EventCmd.Plain ['0'] := Builders.plain_of (by decide)
  have pd : Verif.Spec.EventCmd.Plain "Default".toList := Builders.plain_of (by decide)
  have pn : Verif.Spec.EventCmd.Plain [] := Builders.plain_of (by decide)
  obtain ⟨a1, a2⟩ := ass_time_plain hx.start
  obtain ⟨b1, b2⟩ := ass_time_plain hx.stop
  refine ⟨⟨?_, ?_⟩, ⟨?_, ?_⟩, ⟨?_, ?_, ?_⟩, ?_, ?_, ?_⟩
  · simp only [eventFields, List.forall_mem_cons]
    exact ⟨p0, a1, b1, pd, pn, p0, p0, p0, pn, nofun⟩
  · simp only [eventOptions, List.forall_mem_cons]
    exact ⟨nofun, nofun, nofun⟩
  · intro c hc
    cases hp : x.place with
    | none =>
      have e : x.event.text = text x.lines := by show placeTag x.place ++ _ = _; rw [hp]; rfl
      rw [e] at hc
      exact hx.text.first c hc
    | some n =>
      have e : x.event.text = '{' :: ("\\an".toList ++ Nat.toDigits 10 n ++ ['}'] ++ text x.lines) := by
        show placeTag x.place ++ _ = _; rw [hp]; simp [placeTag]
      rw [e] at hc; simp at hc; subst hc
      exact not_white_of (by decide)
  · intro c hc
    have e : x.event.text.getLast? = (text x.lines).getLast? := by
      show (placeTag x.place ++ text x.lines).getLast? = _
      rw [List.getLast?_append, List.getLast?_eq_some_getLast (text_ne hx.text)]; rfl
    rw [e] at hc
    exact hx.text.last c hc
  · simp only [eventFields, List.forall_mem_cons]
    have n0 : '\n' ∉ ['0'] := by decide
    have nn : '\n' ∉ ([] : Str) := by decide
    have nd : '\n' ∉ "Default".toList := by decide
    exact ⟨n0, a2, b2, nd, nn, n0, n0, n0, nn, nofun⟩
  · simp only [eventOptions, List.forall_mem_cons]
    exact ⟨nofun, nofun, nofun⟩
  · show '\n' ∉ placeTag x.place ++ text x.lines
    simp only [List.mem_append, not_or]
    exact ⟨place_line, text_line hx.text.lines⟩
  · have : ∀ y ∈ eventFields, Has usualEvent y.1 := by
      intro y hy
      refine ⟨y.1, ?_, rfl⟩
      simp only [eventFields, List.mem_cons, List.not_mem_nil, or_false] at hy
      rcases hy with rfl | rfl | rfl | rfl | rfl | rfl | rfl | rfl | rfl <;> decide
    intro y hy h
    exact absurd (this y hy) h
  · have : ∀ y ∈ eventOptions, ¬ Has usualEvent y.1 := by
      simp only [eventOptions, List.forall_mem_cons]
      unfold Has SameName
      refine ⟨by decide, by decide, nofun⟩
    intro y hy
    refine ⟨fun h => ?_, fun h => absurd h (this y hy)⟩
    simp only [eventOptions, List.mem_cons, List.not_mem_nil, or_false] at hy
    rcases hy with rfl | rfl <;> exact absurd (show false = true from h) (by decide)
  · intro h
    exact absurd ⟨"Text".toList, by decide, rfl⟩ h

theorem style_fits : StyleFits usualStyle defaultStyle := by
  refine ⟨⟨?_, ?_⟩, ⟨?_, ?_⟩, ⟨?_, ?_⟩, rfl, ?_, ?_⟩
  · simp only [styleFields, List.forall_mem_cons]
    refine ⟨?_, ?_, ?_, ?_, ?_, ?_, ?_, ?_, ?_, ?_, ?_, ?_, ?_, ?_, ?_, ?_, ?_, ?_, ?_, ?_, ?_, ?_, ?_, nofun⟩ <;>
      exact Builders.plain_of (by decide)
  · simp only [styleOptions, List.forall_mem_cons]
    exact ⟨nofun, nofun, nofun, nofun⟩
  · simp only [styleFields, List.forall_mem_cons]
    refine ⟨?_, ?_, ?_, ?_, ?_, ?_, ?_, ?_, ?_, ?_, ?_, ?_, ?_, ?_, ?_, ?_, ?_, ?_, ?_, ?_, ?_, ?_, ?_, nofun⟩ <;> decide
  · simp only [styleOptions, List.forall_mem_cons]
    exact ⟨nofun, nofun, nofun, nofun⟩
  · simp only [styleFields, List.forall_mem_cons]
    refine ⟨?_, ?_, ?_, ?_, ?_, ?_, ?_, ?_, ?_, ?_, ?_, ?_, ?_, ?_, ?_, ?_, ?_, ?_, ?_, ?_, ?_, ?_, ?_, nofun⟩ <;> decide
  · simp only [styleOptions, List.forall_mem_cons]
    exact ⟨nofun, nofun, nofun, nofun⟩
  · intro y hy h
    exact absurd ⟨y.1, List.mem_map.2 ⟨y, hy, rfl⟩, rfl⟩ h
  · have : ∀ y ∈ styleOptions, ¬ Has usualStyle y.1 := by
      simp only [styleOptions, List.forall_mem_cons]
      unfold Has SameName
      refine ⟨by decide, by decide, by decide, nofun⟩
    intro y hy
    refine ⟨fun h => ?_, fun h => absurd h (this y hy)⟩
    simp only [styleOptions, List.mem_cons, List.not_mem_nil, or_false] at hy
    rcases hy with rfl | rfl | rfl <;> exact absurd h (by decide)

/-- The script with these properties and subtitles. -/
def scriptOf (fields : List (Str × Str)) (xs : List Sub) : Script :=
  { version := .ass4plus, issues := [], stylesFmt := some usualStyle, eventsFmt := some usualEvent,
    sections := [.info fields ⟨0, 0, 0, 0⟩, .styles [(defaultStyle, ⟨0, 0, 0, 0⟩)], .events (xs.map (fun x => (x.event, ⟨0, 0, 0, 0⟩)))] }

theorem toAss_usual (e : Ast.Event) : e.toAssWith usualEvent = e.toAss := rfl

theorem dialogue_join (a b t : Str) : Ast.Kind.dialogue.str ++ ": ".toList ++
    joinStr [','] [['0'], a, b, "Default".toList, [], ['0'], ['0'], ['0'], [], t] = dialogue a b t := by
  have j : ∀ (x y : Str) (l : List Str), joinStr [','] (x :: y :: l) = x ++ [','] ++ joinStr [','] (y :: l) := fun _ _ _ => rfl
  have j1 : ∀ x : Str, joinStr [','] [x] = x := fun _ => rfl
  have e1 : "Dialogue: 0,".toList = Ast.Kind.dialogue.str ++ ": ".toList ++ ['0'] ++ [','] := by decide
  have e2 : ",Default,,0,0,0,,".toList = [','] ++ "Default".toList ++ [','] ++ [','] ++ ['0'] ++ [','] ++ ['0'] ++ [','] ++ ['0'] ++ [','] ++ [','] := by
    decide
  unfold dialogue
  rw [e1, e2]
  generalize Ast.Kind.dialogue.str = k
  generalize ": ".toList = c
  generalize "Default".toList = d
  simp only [j, j1, List.append_assoc, List.nil_append, List.cons_append]

theorem said_event (x : Sub) : x.event.toAssWith usualEvent = said x :=
  (toAss_usual x.event).trans (Eq.trans (by unfold Ast.Event.toAss Sub.event; exact rfl) (dialogue_join x.start.ass x.stop.ass x.text))

theorem toAss_script (head : Str) (fields : List (Str × Str)) (xs : List Sub)
    (hh : head = Parser.infoToAss fields ++ ['\n'] ++ (Parser.sectionToAss (some usualStyle) (some usualEvent) (.styles [(defaultStyle, ⟨0, 0, 0, 0⟩)])) ++
      ['\n'] ++ "[Events]\n".toList ++ Parser.formatToAss (some usualEvent)) :
    toAss (scriptOf fields xs) = script head (xs.map said) := by
  have ev : ∀ xs : List Sub, (xs.map (fun x => (x.event, (⟨0, 0, 0, 0⟩ : Span)))).flatMap (fun e => e.1.toAssWith usualEvent ++ ['\n']) =
      (xs.map said).flatMap (· ++ ['\n']) := by
    intro xs
    induction xs with
    | nil => rfl
    | cons x l ih => simp only [List.map_cons, List.flatMap_cons, ih, said_event]
  unfold script
  rw [← ev, hh]
  generalize hst : Parser.sectionToAss (some usualStyle) (some usualEvent) (.styles [(defaultStyle, ⟨0, 0, 0, 0⟩)]) = st
  have e : toAss (scriptOf fields xs) = Parser.infoToAss fields ++ ['\n'] ++
      (Parser.sectionToAss (some usualStyle) (some usualEvent) (.styles [(defaultStyle, ⟨0, 0, 0, 0⟩)]) ++
      ['\n'] ++ ("[Events]\n".toList ++ Parser.formatToAss (some usualEvent) ++
        (xs.map (fun x => (x.event, (⟨0, 0, 0, 0⟩ : Span)))).flatMap (fun e => e.1.toAssWith usualEvent ++ ['\n']))) := rfl
  rw [e, hst]
  simp only [List.append_assoc]

theorem script_parsed {head : Str} {fields : List (Str × Str)} {xs : List Sub} (hf : ∀ f ∈ fields, FieldOk f) (hok : ∀ x ∈ xs, x.Ok)
    (hh : head = Parser.infoToAss fields ++ ['\n'] ++ (Parser.sectionToAss (some usualStyle) (some usualEvent) (.styles [(defaultStyle, ⟨0, 0, 0, 0⟩)])) ++
      ['\n'] ++ "[Events]\n".toList ++ Parser.formatToAss (some usualEvent))
    (hsize : Verif.Spec.Script.size (script head (xs.map said)) ≤ 50 * 1024 * 1024) :
    ∃ s, parse (script head (xs.map said)) = some s ∧
      s.sections.map content = [.info fields, .styles [defaultStyle], .events (xs.map Sub.event)] ∧ Verif.Spec.Script.unknowns s.issues = [] := by
  have e := toAss_script head fields xs hh
  rw [← e] at hsize ⊢
  have hw : ∀ y ∈ (scriptOf fields xs).sections, Writable (scriptOf fields xs).stylesFmt (scriptOf fields xs).eventsFmt (content y) := by
    simp only [scriptOf, List.forall_mem_cons]
    refine ⟨hf, ⟨?_, ?_⟩, ⟨?_, ?_⟩, nofun⟩
    · intro f hf; cases hf; exact Parser.usual_style_ok
    · intro s hs
      simp at hs; subst hs
      exact style_fits
    · intro f hf; cases hf; exact Parser.usual_event_ok
    · intro y hy
      simp at hy
      obtain ⟨x, hx, rfl⟩ := hy
      exact event_fits (hok x hx)
  obtain ⟨s, h1, h2, h3, _⟩ := Parser.C75_round_trip_partial hw hsize
  refine ⟨s, h1, ?_, h3⟩
  rw [h2]
  simp [scriptOf, content]

/-! ## Export -/

theorem lines_joined : ∀ {ls : List Str}, ls ≠ [] → ∀ r : Str, joinStr ['\n'] ls ++ "\n\n".toList ++ r = file ['\n'] (ls ++ [[]]) ++ r
  | [l], _, r => by simp [joinStr, file]
  | l :: m :: ls, _, r => by
    have ih := lines_joined (ls := m :: ls) (by simp) r
    have j : joinStr ['\n'] (l :: m :: ls) = l ++ ['\n'] ++ joinStr ['\n'] (m :: ls) := rfl
    have f : file ['\n'] (l :: m :: ls ++ [[]]) = l ++ ['\n'] ++ file ['\n'] (m :: ls ++ [[]]) := rfl
    rw [j, f]
    simp only [List.append_assoc] at ih ⊢
    rw [ih]

theorem entry_file {f : Time → Str} {n : Nat} {x : Sub} {xs : List Sub} (hne : x.lines ≠ []) :
    showNat n ++ '\n' :: f x.start ++ " --> ".toList ++ f x.stop ++ '\n' :: joinStr ['\n'] (x.lines.map html) ++ "\n\n".toList ++
      file ['\n'] (numbered f (n + 1) xs) = file ['\n'] (numbered f n (x :: xs)) := by
  have e : file ['\n'] (numbered f n (x :: xs)) = showNat n ++ ['\n'] ++ ((f x.start ++ " --> ".toList ++ f x.stop) ++ ['\n'] ++
      (file ['\n'] (x.lines.map html ++ [[]]) ++ file ['\n'] (numbered f (n + 1) xs))) := by
    show (Nat.toDigits 10 n :: (f x.start ++ " --> ".toList ++ f x.stop) :: (x.lines.map html ++ [] :: numbered f (n + 1) xs)).flatMap (· ++ ['\n']) = _
    rw [List.flatMap_cons, List.flatMap_cons, show x.lines.map html ++ [] :: numbered f (n + 1) xs =
      (x.lines.map html ++ [[]]) ++ numbered f (n + 1) xs by simp, List.flatMap_append]
    rfl
  rw [e, ← lines_joined (by simpa using hne)]
  simp

theorem exportFrom_eq {conv : Str → Str} {sep : Char} {f : Time → Str}
    (hf : ∀ t : Time, t.Ok → t.Given → fmtFormat sep t.ass = .ok (f t)) {evs : List SrtDoc.Ev} {xs : List Sub} (h : Shows evs xs)
    (hok : ∀ x ∈ xs, x.Ok) (hc : ∀ x ∈ xs, exportText conv (text x.lines) = joinStr ['\n'] (x.lines.map html)) :
    ∀ n, exportFrom conv sep n evs = .ok (file ['\n'] (numbered f n xs), xs.length) := by
  induction h with
  | nil => intro n; rfl
  | other e l xs he h ih =>
    intro n
    rw [exportFrom, he]
    exact ih hok hc n
  | cons e l x xs he hp hs hfin ht g1 g2 h ih =>
    intro n
    have hx := hok x (by simp)
    rw [exportFrom, he, if_pos rfl, hs, hf _ hx.start g1]
    dsimp only
    rw [hfin, hf _ hx.stop g2]
    dsimp only
    rw [ih (fun y hy => hok y (by simp [hy])) (fun y hy => hc y (by simp [hy])) (n + 1)]
    dsimp only
    rw [ht, hc x (by simp), entry_file hx.text.ne]
    rfl

theorem file_pre {B : Sub → List Str → Prop} {G : Str → Prop} {g : Str} (hg : G g) {xs : List Sub} {ls : List Str} {k : Nat}
    (h : File B G xs ls k) : File B G xs (g :: ls) (if xs = [] then k + 1 else k) := by
  cases h with
  | nil _ ht =>
    exact File.nil (g :: ls) (by
      intro l hl
      rcases List.mem_cons.1 hl with rfl | hl
      · exact hg
      · exact ht l hl)
  | last x b pre hx hp =>
    exact File.last x b (g :: pre) hx (by
      intro l hl
      rcases List.mem_cons.1 hl with rfl | hl
      · exact hg
      · exact hp l hl)
  | cons x b xs y rest _ pre hx hp hgb hf =>
    exact File.cons x b xs y rest k (g :: pre) hx (by
      intro l hl
      rcases List.mem_cons.1 hl with rfl | hl
      · exact hg
      · exact hp l hl) hgb hf

theorem nil_blank : BlankLine [] := ⟨⟨by simp, by simp⟩, by intro c hc; simp at hc⟩

theorem numbered_file {B : Sub → List Str → Prop} {G : Str → Prop} {f : Time → Str} (hG : G [])
    {P : Sub → Prop} (hB : ∀ x n, P x → B x (Nat.toDigits 10 n :: (f x.start ++ " --> ".toList ++ f x.stop) :: x.lines.map html)) :
    ∀ (xs : List Sub) (n : Nat), (∀ x ∈ xs, P x) → File B G xs (numbered f n xs) (if xs = [] then 0 else 1)
  | [], n, _ => File.nil [] (by simp)
  | x :: xs, n, h => by
    have ih := file_pre hG (numbered_file hG hB xs (n + 1) (fun y hy => h y (by simp [hy])))
    have hb := hB x n (h x (by simp))
    have := File.cons x _ xs [] _ _ [] hb (by simp) nil_blank ih
    rw [List.nil_append] at this
    have e : (if xs = [] then (if xs = [] then 0 else 1) + 1 else (if xs = [] then 0 else 1)) = (if x :: xs = [] then 0 else 1) := by
      by_cases e : xs = [] <;> simp [e]
    rw [e] at this
    exact this

theorem shows_place {evs : List SrtDoc.Ev} {xs : List Sub} (h : Shows evs xs) : ∀ x ∈ xs, x.place = none := by
  induction h with
  | nil => simp
  | other e l xs he h ih => exact ih
  | cons e l x xs he hp hs hfin ht g1 g2 h ih =>
    intro y hy
    rcases List.mem_cons.1 hy with rfl | hy
    · exact hp
    · exact ih y hy

theorem digits_line (n : Nat) : RawLine (Nat.toDigits 10 n) ∧ ¬ Blank (Nat.toDigits 10 n) := by
  have hd : ∀ c ∈ Nat.toDigits 10 n, c.isDigit = true := showNat_digits n
  refine ⟨⟨showNat_no n _ (by decide), ?_⟩, ?_⟩
  · intro e
    exact absurd (hd _ (List.mem_of_getLast? e)) (by decide)
  · intro hb
    match e : Nat.toDigits 10 n with
    | [] => exact showNat_ne_nil n e
    | d :: r => exact digit_not_white (hd d (by rw [e]; simp)) (hb d (by rw [e]; simp))

theorem digits_name (n : Nat) : CueName (Nat.toDigits 10 n) := by
  have hd : ∀ c ∈ Nat.toDigits 10 n, c.isDigit = true := showNat_digits n
  refine ⟨?_, (digits_line n).1, ?_⟩
  · rintro ⟨_, h | ⟨w, t, _, e⟩⟩
    · exact (digits_line n).2 h
    · exact absurd (hd 'N' (by rw [e]; simp)) (by decide)
  · intro a b e
    exact absurd (hd '-' (by rw [e]; simp)) (by decide)

theorem srt_numbered {xs : List Sub} (h : ∀ x ∈ xs, x.place = none) (n : Nat) :
    SrtFile xs (numbered Time.srt n xs) (if xs = [] then 0 else 1) :=
  numbered_file nil_blank (P := fun x => x.place = none) (fun _ n hp => ⟨hp, _, (digits_line n).1, (digits_line n).2, rfl⟩) xs n h

theorem vtt_numbered {xs : List Sub} (h : ∀ x ∈ xs, x.place = none) (hs : ∀ x ∈ xs, ∀ l ∈ x.lines, NoStrike l) (n : Nat) :
    VttFile xs (numbered Time.vtt n xs) (if xs = [] then 0 else 1) := by
  refine numbered_file ⟨nil_blank.1, Or.inl nil_blank.2⟩ (P := fun x => x.place = none ∧ ∀ l ∈ x.lines, NoStrike l) ?_ xs n
    (fun x hx => ⟨h x hx, hs x hx⟩)
  intro x n hp
  refine ⟨hp.2, [Nat.toDigits 10 n], x.start.vtt, x.stop.vtt, [], Or.inr ⟨_, rfl, digits_name n⟩, Or.inl rfl, Or.inl rfl, ?_, ?_⟩
  · rw [hp.1]; exact .none
  · rw [List.append_nil]; rfl

/-! ## The heads -/

theorem field_ok {n v : Str} (hn : (!n.contains ',' && (n.head?.all (fun c => !isWs c)) && (n.getLast?.all (fun c => !isWs c))) = true)
    (hv : (!v.contains ',' && (v.head?.all (fun c => !isWs c)) && (v.getLast?.all (fun c => !isWs c))) = true)
    (h : ('\n' ∉ n ∧ '\n' ∉ v) ∧ ':' ∉ n ∧ n.head? ≠ some ';' ∧ n.head? ≠ some '#' ∧ n.head? ≠ some '[') : FieldOk (n, v) :=
  ⟨h.1, ⟨(Builders.plain_of hn).2, (Builders.plain_of hv).2⟩, h.2.1, h.2.2⟩

theorem info_ok {title : Str} (ht : (!title.contains ',' && (title.head?.all (fun c => !isWs c)) && (title.getLast?.all (fun c => !isWs c))) = true)
    (hl : '\n' ∉ title) : ∀ f ∈ infoFields title, FieldOk f := by
  simp only [infoFields, List.forall_mem_cons]
  refine ⟨field_ok (by decide) ht ⟨⟨by decide, hl⟩, by decide⟩, ?_, ?_, ?_, ?_, ?_, ?_, ?_, nofun⟩ <;>
    exact field_ok (by decide) (by decide) (by decide)

theorem srtHead_eq : srtHead = Parser.infoToAss (infoFields "Converted from SRT".toList) ++ ['\n'] ++
    (Parser.sectionToAss (some usualStyle) (some usualEvent) (.styles [(defaultStyle, ⟨0, 0, 0, 0⟩)])) ++ ['\n'] ++
      "[Events]\n".toList ++ Parser.formatToAss (some usualEvent) := by decide +kernel

theorem vttHead_eq : vttHead = Parser.infoToAss (infoFields "Converted from WebVTT".toList ++ [("PlayResX".toList, "640".toList), ("PlayResY".toList, "480".toList)]) ++ ['\n'] ++
    (Parser.sectionToAss (some usualStyle) (some usualEvent) (.styles [(defaultStyle, ⟨0, 0, 0, 0⟩)])) ++ ['\n'] ++
      "[Events]\n".toList ++ Parser.formatToAss (some usualEvent) := by decide +kernel

end Verif.FormatDoc
