import Verif.Spec.Markup
import Verif.Props.FormatDoc
/-!
# C99 — markup of WebVTT and SRT
-/
namespace Verif.Props.Markup
open Verif Verif.Formats Verif.FormatDoc
open Verif.SrtDoc (clear clear_ch replaceAll_clear white_iff mismatch mismatch_strip)
open Verif.Spec.SrtDoc (White)
open Verif.Spec.FormatDoc (Tok Sw ass html)
open Verif.Spec.Markup

/-! ## Piece by piece -/

/-- `F` turns `s` into `s'` whatever follows. -/
def Dist (F : Str → Str) (s s' : Str) : Prop := ∀ rest, F (s ++ rest) = s' ++ F rest

theorem dist_append {F : Str → Str} {s s' t t' : Str} (h1 : Dist F s s') (h2 : Dist F t t') : Dist F (s ++ t) (s' ++ t') := by
  intro rest
  rw [List.append_assoc, h1, h2, List.append_assoc]

theorem dist_nil (F : Str → Str) : Dist F [] [] := fun _ => rfl

theorem dist_flatMap {α : Type} {F : Str → Str} {f g : α → Str} : ∀ {l : List α}, (∀ x ∈ l, Dist F (f x) (g x)) →
    Dist F (l.flatMap f) (l.flatMap g)
  | [], _ => dist_nil F
  | x :: l, h => by
    rw [List.flatMap_cons, List.flatMap_cons]
    exact dist_append (h x (by simp)) (dist_flatMap fun y hy => h y (by simp [hy]))

theorem dist_all {α : Type} {F : Str → Str} {f g : α → Str} {l : List α} (h0 : F [] = []) (h : ∀ x ∈ l, Dist F (f x) (g x)) :
    F (l.flatMap f) = l.flatMap g := by
  have := dist_flatMap h []
  rw [List.append_nil, h0, List.append_nil] at this
  exact this

theorem clear_none {p : Char} {ps s : Str} (h : p ∉ s) : clear (p :: ps) s = true := by
  induction s with
  | nil => rfl
  | cons c s ih =>
    have : p ≠ c := fun e => h (e ▸ List.mem_cons_self)
    simp [clear, mismatch, this, ih fun hm => h (List.mem_cons_of_mem _ hm)]

theorem dist_replaces {s : Str} : ∀ {tbl : List (Str × Str)}, (∀ p ∈ tbl, clear p.1 s = true) → Dist (replaces tbl) s s
  | [], _ => fun _ => rfl
  | (p, r) :: l, h => by
    intro rest
    rw [replaces, replaceAll_clear (h (p, r) (by simp)), dist_replaces (fun q hq => h q (by simp [hq]))]
    rfl

/-- Every tag of the table is replaced by its own replacement and the replacements are left alone. -/
def tableOk (tbl : List (Str × Str)) : Bool :=
  tbl.all fun p => p.1 != [] && tbl.all fun q => clear q.1 p.2 && (q.1 == p.1 || clear q.1 p.1)

theorem dist_tag {p r : Str} : ∀ {tbl : List (Str × Str)}, (∀ q ∈ tbl, q.1 ≠ [] ∧ clear q.1 r = true ∧ (q = (p, r) ∨ clear q.1 p = true)) →
    (p, r) ∈ tbl → Dist (replaces tbl) p r
  | [], _, h => by cases h
  | (q, t) :: l, h, hm => by
    intro rest
    rw [replaces, replaces]
    obtain ⟨h1, h2, h3⟩ := h (q, t) (by simp)
    rcases h3 with h3 | h3
    · cases h3
      rw [replaceAll_prefix _ h1, dist_replaces (fun q hq => (h q (by simp [hq])).2.1)]
    · have : (p, r) ∈ l := by
        rcases List.mem_cons.mp hm with e | e
        · cases e
          cases hp : p with
          | nil => rw [hp] at h1; exact (h1 rfl).elim
          | cons c x =>
            rw [hp] at h3
            simp only [clear, Bool.and_eq_true] at h3
            have := mismatch_strip h3.1 []
            rw [stripPrefix_append] at this
            cases this
        · exact e
      rw [replaceAll_clear h3, dist_tag (fun q hq => h q (by simp [hq])) this]

/-- The same for the matchers. -/
def DistR (m : Str → Option (Str × Str)) (s s' : Str) : Prop :=
  ∀ k rest, (s ++ rest).length ≤ k → ∃ k', rest.length ≤ k' ∧ rewriteAux m k (s ++ rest) = s' ++ rewriteAux m k' rest

theorem distR_append {m : Str → Option (Str × Str)} {s s' t t' : Str} (h1 : DistR m s s') (h2 : DistR m t t') :
    DistR m (s ++ t) (s' ++ t') := by
  intro k rest hk
  rw [List.append_assoc] at hk ⊢
  obtain ⟨k1, hk1, e1⟩ := h1 k (t ++ rest) hk
  obtain ⟨k2, hk2, e2⟩ := h2 k1 rest hk1
  exact ⟨k2, hk2, by rw [e1, e2, List.append_assoc]⟩

theorem distR_nil (m : Str → Option (Str × Str)) : DistR m [] [] := fun k _ hk => ⟨k, hk, rfl⟩

theorem distR_all {α : Type} {m : Str → Option (Str × Str)} {f g : α → Str} {l : List α} (h : ∀ x ∈ l, DistR m (f x) (g x)) :
    rewrite m (l.flatMap f) = l.flatMap g := by
  have key : ∀ l : List α, (∀ x ∈ l, DistR m (f x) (g x)) → DistR m (l.flatMap f) (l.flatMap g) := by
    intro l
    induction l with
    | nil => exact fun _ => distR_nil m
    | cons x l ih =>
      intro h
      rw [List.flatMap_cons, List.flatMap_cons]
      exact distR_append (h x (by simp)) (ih fun y hy => h y (by simp [hy]))
  obtain ⟨k', -, e⟩ := key l h (l.flatMap f).length [] (by simp)
  rw [List.append_nil] at e
  unfold rewrite
  rw [e]
  cases k' <;> simp [rewriteAux]

theorem distR_match {m : Str → Option (Str × Str)} {s s' : Str} (hs : s ≠ []) (h : ∀ rest, m (s ++ rest) = some (s', rest)) :
    DistR m s s' := by
  intro k rest hk
  cases s with
  | nil => exact (hs rfl).elim
  | cons c s =>
    cases k with
    | zero => simp at hk
    | succ k =>
      refine ⟨k, by simp at hk; omega, ?_⟩
      have := h rest
      rw [List.cons_append] at this ⊢
      rw [rewriteAux, this]

theorem distR_clear {p : Str} {f : Str → Option (Str × Str)} : ∀ {s : Str}, clear p s = true → DistR (lit p f) s s
  | [], _ => distR_nil _
  | c :: s, h => by
    simp only [clear, Bool.and_eq_true] at h
    intro k rest hk
    cases k with
    | zero => simp at hk
    | succ k =>
      obtain ⟨k', hk', e⟩ := distR_clear (f := f) h.2 k rest (by simp at hk ⊢; omega)
      refine ⟨k', hk', ?_⟩
      have hm : lit p f (c :: (s ++ rest)) = none := by
        unfold lit
        rw [show c :: (s ++ rest) = (c :: s) ++ rest from rfl, mismatch_strip h.1 rest]
      rw [List.cons_append, rewriteAux, hm, e]
      rfl

/-! ## Switches -/

theorem plain_of {x : List Tok} (h : Inner x) : Without '<' x := by
  intro c hc e
  exact (h _ hc).1 (by rw [e])

theorem no_lt {x : List Tok} (h : Inner x) : '<' ∉ ass x := not_mem_ass (plain_of h) (by decide)

theorem dist_vtt {x : List Tok} (h : Inner x) : Dist (replaces vttTags) (html x) (ass x) := by
  refine dist_flatMap fun t ht => ?_
  have := h t ht
  cases t with
  | ch c =>
    refine dist_replaces fun p hp => ?_
    have hc : c ≠ '<' := fun e => this.1 (by rw [e])
    have : ∃ ps, p.1 = '<' :: ps := by
      simp only [vttTags, List.mem_cons, List.not_mem_nil, or_false] at hp
      rcases hp with rfl | rfl | rfl | rfl | rfl | rfl <;> exact ⟨_, rfl⟩
    obtain ⟨ps, e⟩ := this
    rw [e]
    exact clear_ch hc
  | on y =>
    cases y with
    | s => exact (this.2.1 rfl).elim
    | _ => exact dist_tag (by decide) (by decide)
  | off y =>
    cases y with
    | s => exact (this.2.2 rfl).elim
    | _ => exact dist_tag (by decide) (by decide)

theorem dist_srt (t : Tok) (h : t ≠ .ch '<') : Dist (replaces srtTags) t.html t.ass := by
  cases t with
  | ch c =>
    refine dist_replaces fun p hp => ?_
    have hc : c ≠ '<' := fun e => h (by rw [e])
    have : ∃ ps, p.1 = '<' :: ps := by
      simp only [srtTags, List.mem_cons, List.not_mem_nil, or_false] at hp
      rcases hp with rfl | rfl | rfl | rfl | rfl | rfl | rfl | rfl <;> exact ⟨_, rfl⟩
    obtain ⟨ps, e⟩ := this
    rw [e]
    exact clear_ch hc
  | on y => cases y <;> exact dist_tag (by decide) (by decide)
  | off y => cases y <;> exact dist_tag (by decide) (by decide)

/-- A text that has no `<` but at its start is left alone by every tag it does not agree with. -/
theorem clear_head {p : Str} {s : Str} {ps : Str} (hp : p = '<' :: ps) (c : Char) (h : mismatch p ('<' :: c :: s) = true)
    (hs : '<' ∉ c :: s) : clear p ('<' :: c :: s) = true := by
  rw [clear, h, Bool.true_and, hp]
  exact clear_none hs

theorem dist_lit {s : Str} {tbl : List (Str × Str)} (h : tbl.all (fun p => clear p.1 s) = true) : Dist (replaces tbl) s s :=
  dist_replaces fun p hp => List.all_eq_true.mp h p hp

theorem dist_free {s : Str} {tbl : List (Str × Str)} (h : tbl.all (fun p => p.1.head? == some '<') = true) (hs : '<' ∉ s) :
    Dist (replaces tbl) s s := by
  refine dist_replaces fun p hp => ?_
  have := List.all_eq_true.mp h p hp
  cases e : p.1 with
  | nil => rw [e] at this; cases this
  | cons c ps =>
    rw [e] at this
    simp at this
    rw [this]
    exact clear_none hs

/-! ## WebVTT -/

/-- The stages: switches, classes, voices, annotations. -/
def stage : Nat → Cue → Str
  | n, .cls m x => if n = 0 then "<c.".toList ++ m ++ ">".toList ++ ass x ++ "</c>".toList else (Cue.cls m x).event
  | n, .voice b m x => if n ≤ 1 then "<v".toList ++ b ++ m ++ ">".toList ++ ass x ++ "</v>".toList else (Cue.voice b m x).event
  | n, .ruby x y =>
    if n ≤ 2 then "<ruby>".toList ++ ass x ++ "<rt>".toList ++ ass y ++ "</rt></ruby>".toList else (Cue.ruby x y).event
  | n, .stamp t => if n ≤ 3 then "<".toList ++ t ++ ">".toList else []
  | _, .plain t => t.ass

theorem white_not {c : Char} (h : White c) : c ≠ '<' ∧ c ≠ '>' := by
  have h1 : ('<' : Char).toNat = 60 := rfl
  have h2 : ('>' : Char).toNat = 62 := rfl
  constructor
  · rintro rfl
    unfold White at h
    rw [h1] at h
    omega
  · rintro rfl
    unfold White at h
    rw [h2] at h
    omega

theorem stamp_ne : ∀ c ∈ "0123456789:.,".toList, c ∉ ['b', 'i', 'u', '/', 'c', 'v', 'r'] := by decide

theorem stamp_chars {t : Str} (h : ∀ c ∈ t, c ∈ "0123456789:.,".toList) : '<' ∉ t ∧ '>' ∉ t := by
  constructor <;> (intro hm; exact absurd (h _ hm) (by decide))

theorem html_one (t : Tok) : html [t] = t.html := by simp [html]
theorem ass_one (t : Tok) : ass [t] = t.ass := by simp [ass]

theorem stage0 (q : Cue) (h : q.Ok) : Dist (replaces vttTags) q.vtt (stage 0 q) := by
  cases q with
  | plain t =>
    have := dist_vtt (x := [t]) h
    rw [html_one, ass_one] at this
    exact this
  | cls n x =>
    exact dist_append (dist_append (dist_append (dist_append (dist_lit (by decide)) (dist_free (by decide) h.1.2.1))
      (dist_lit (by decide))) (dist_vtt h.2)) (dist_lit (by decide))
  | voice b n x =>
    obtain ⟨h1, h2, h3, h4, h5⟩ := h
    exact dist_append (dist_append (dist_append (dist_append (dist_append (dist_lit (by decide))
      (dist_free (by decide) fun hm => (white_not (h2 _ hm)).1 rfl)) (dist_free (by decide) h3.2.1))
      (dist_lit (by decide))) (dist_vtt h5)) (dist_lit (by decide))
  | ruby x y =>
    exact dist_append (dist_append (dist_append (dist_append (dist_lit (by decide)) (dist_vtt h.1)) (dist_lit (by decide)))
      (dist_vtt h.2)) (dist_lit (by decide))
  | stamp t =>
    obtain ⟨h1, h2⟩ := h
    refine dist_replaces fun p hp => ?_
    cases t with
    | nil => exact (h1 rfl).elim
    | cons c t =>
      have hc := h2 c (by simp)
      have hs : '<' ∉ c :: (t ++ ">".toList) := by
        have := (stamp_chars h2).1
        simp only [List.mem_cons, List.mem_append, not_or] at this ⊢
        exact ⟨this.1, this.2, by decide⟩
      have key : ∃ d ps, p.1 = '<' :: d :: ps ∧ d ∈ ['b', 'i', 'u', '/', 'c', 'v', 'r'] := by
        simp only [vttTags, List.mem_cons, List.not_mem_nil, or_false] at hp
        rcases hp with rfl | rfl | rfl | rfl | rfl | rfl <;> exact ⟨_, _, rfl, by decide⟩
      obtain ⟨d, ps, e, hd⟩ := key
      have hne : d ≠ c := fun e => stamp_ne c hc (e ▸ hd)
      show clear p.1 ('<' :: c :: (t ++ ">".toList)) = true
      exact clear_head e c (by rw [e]; simp [mismatch, hne]) hs

theorem enclosed_eq {close x : Str} (hc : ∃ cs, close = '<' :: cs) (hx : '<' ∉ x) (rest : Str) :
    enclosed close (x ++ (close ++ rest)) = some (x, rest) := by
  obtain ⟨cs, rfl⟩ := hc
  have hx' : ∀ c ∈ x, decide (c ≠ '<') = true := by
    intro c hc
    have : c ≠ '<' := fun e => hx (e ▸ hc)
    simpa using this
  have e1 : ∀ y : Str, (x ++ '<' :: y).dropWhile (fun c => decide (c ≠ '<')) = '<' :: y := by
    intro y
    rw [List.dropWhile_append_of_pos hx']
    simp
  have e2 : ∀ y : Str, (x ++ '<' :: y).takeWhile (fun c => decide (c ≠ '<')) = x := by
    intro y
    rw [List.takeWhile_append_of_pos hx']
    simp
  unfold enclosed
  rw [List.cons_append, e1, e2, ← List.cons_append, stripPrefix_append]

theorem inner_cls (n : Str) (hn : Name n) (x : Str) (hx : '<' ∉ x) (rest : Str) :
    vttClass ("<c.".toList ++ n ++ ">".toList ++ x ++ "</c>".toList ++ rest) =
      some ("{\\c&H".toList ++ n ++ "&}".toList ++ x ++ "{\\c}".toList, rest) := by
  unfold vttClass lit
  rw [show "<c.".toList ++ n ++ ">".toList ++ x ++ "</c>".toList ++ rest = "<c.".toList ++ (n ++ '>' :: (x ++ ("</c>".toList ++ rest))) by simp,
    stripPrefix_append]
  simp only [upTo1, splitOnce_append _ hn.2.2]
  cases n with
  | nil => exact (hn.1 rfl).elim
  | cons c n =>
    have e := enclosed_eq (close := "</c>".toList) ⟨_, rfl⟩ hx rest
    simp only [e]

theorem inner_voice (b n : Str) (hb : b ≠ []) (hw : ∀ c ∈ b, White c) (hn : Name n) (hh : ∀ c, n.head? = some c → ¬ White c)
    (x : Str) (hx : '<' ∉ x) (rest : Str) :
    vttVoice ("<v".toList ++ b ++ n ++ ">".toList ++ x ++ "</v>".toList ++ rest) =
      some ("{\\fn".toList ++ n ++ "}".toList ++ x ++ "{\\fn}".toList, rest) := by
  unfold vttVoice lit
  rw [show "<v".toList ++ b ++ n ++ ">".toList ++ x ++ "</v>".toList ++ rest =
    "<v".toList ++ ((b ++ n) ++ '>' :: (x ++ ("</v>".toList ++ rest))) by simp, stripPrefix_append]
  have hgt : '>' ∉ b ++ n := by
    rw [List.mem_append, not_or]
    exact ⟨fun hm => (white_not (hw _ hm)).2 rfl, hn.2.2⟩
  have hb' : ∀ c ∈ b, isWs c = true := fun c hc => (white_iff c).mpr (hw c hc)
  have hv : voiceName ((b ++ n) ++ '>' :: (x ++ ("</v>".toList ++ rest))) = some (n, x ++ ("</v>".toList ++ rest)) := by
    unfold voiceName upTo1
    rw [splitOnce_append _ hgt]
    cases n with
    | nil => exact (hn.1 rfl).elim
    | cons c n =>
      have hc : isWs c = false := by
        cases e : isWs c with
        | false => rfl
        | true => exact (hh c rfl ((white_iff c).mp e)).elim
      cases b with
      | nil => exact (hb rfl).elim
      | cons d b =>
        simp only [List.cons_append]
        rw [← List.cons_append, List.takeWhile_append_of_pos hb', List.dropWhile_append_of_pos hb',
          List.takeWhile_cons_of_neg (by simp [hc]), List.dropWhile_cons_of_neg (by simp [hc])]
        simp
  have e := enclosed_eq (close := "</v>".toList) ⟨_, rfl⟩ hx rest
  simp only [hv, e]

theorem inner_ruby (x y : Str) (hx : '<' ∉ x) (hy : '<' ∉ y) (rest : Str) :
    vttRuby ("<ruby>".toList ++ x ++ "<rt>".toList ++ y ++ "</rt></ruby>".toList ++ rest) =
      some (x ++ "(".toList ++ y ++ ")".toList, rest) := by
  unfold vttRuby lit
  rw [show "<ruby>".toList ++ x ++ "<rt>".toList ++ y ++ "</rt></ruby>".toList ++ rest =
    "<ruby>".toList ++ (x ++ ("<rt>".toList ++ (y ++ ("</rt></ruby>".toList ++ rest)))) by simp, stripPrefix_append]
  have e1 := enclosed_eq (close := "<rt>".toList) ⟨_, rfl⟩ hx (y ++ ("</rt></ruby>".toList ++ rest))
  have e2 := enclosed_eq (close := "</rt></ruby>".toList) ⟨_, rfl⟩ hy rest
  simp only [e1, e2]
  rfl

theorem inner_stamp (t : Str) (h1 : t ≠ []) (h2 : ∀ c ∈ t, c ∈ "0123456789:.,".toList) (rest : Str) :
    vttStamp ("<".toList ++ t ++ ">".toList ++ rest) = some ([], rest) := by
  unfold vttStamp lit
  rw [show "<".toList ++ t ++ ">".toList ++ rest = ['<'] ++ (t ++ '>' :: rest) by simp, stripPrefix_append]
  simp only [upTo1, splitOnce_append _ (stamp_chars h2).2]
  have key : ∀ c ∈ "0123456789:.,".toList, (('0' ≤ c && c ≤ '9') || c = ':' || c = '.' || c = ',') = true := by decide
  cases t with
  | nil => exact (h1 rfl).elim
  | cons c t =>
    simp only []
    rw [if_pos (List.all_eq_true.mpr fun c hc => key c (h2 c hc))]

theorem clear_free {f : Str → Option (Str × Str)} {p ps s : Str} (hp : p = '<' :: ps) (hs : '<' ∉ s) : DistR (lit p f) s s := by
  subst hp
  exact distR_clear (clear_none hs)

theorem clear_stamp {f : Str → Option (Str × Str)} {p ps t : Str} {d : Char} (hp : p = '<' :: d :: ps)
    (hd : d ∈ ['b', 'i', 'u', '/', 'c', 'v', 'r']) (h1 : t ≠ []) (h2 : ∀ c ∈ t, c ∈ "0123456789:.,".toList) :
    DistR (lit p f) ("<".toList ++ t ++ ">".toList) ("<".toList ++ t ++ ">".toList) := by
  cases t with
  | nil => exact (h1 rfl).elim
  | cons c t =>
    have hs : '<' ∉ c :: (t ++ ">".toList) := by
      have := (stamp_chars h2).1
      simp only [List.mem_cons, List.mem_append, not_or] at this ⊢
      exact ⟨this.1, this.2, by decide⟩
    have hne : d ≠ c := fun e => stamp_ne c (h2 c (by simp)) (e ▸ hd)
    exact distR_clear (clear_head hp c (by rw [hp]; simp [mismatch, hne]) hs)

theorem event_free (q : Cue) (h : q.Ok) : '<' ∉ q.event := by
  have free : ∀ s : Str, s.all (· != '<') = true → '<' ∉ s := by
    intro s hs hm
    have := List.all_eq_true.mp hs _ hm
    simp at this
  cases q with
  | plain t =>
    have := no_lt (x := [t]) h
    rw [ass_one] at this
    exact this
  | cls n x =>
    show '<' ∉ "{\\c&H".toList ++ n ++ "&}".toList ++ ass x ++ "{\\c}".toList
    simp only [List.mem_append, not_or]
    exact ⟨⟨⟨⟨by decide, h.1.2.1⟩, by decide⟩, no_lt h.2⟩, by decide⟩
  | voice b n x =>
    show '<' ∉ "{\\fn".toList ++ n ++ "}".toList ++ ass x ++ "{\\fn}".toList
    simp only [List.mem_append, not_or]
    exact ⟨⟨⟨⟨by decide, h.2.2.1.2.1⟩, by decide⟩, no_lt h.2.2.2.2⟩, by decide⟩
  | ruby x y =>
    show '<' ∉ ass x ++ "(".toList ++ ass y ++ ")".toList
    simp only [List.mem_append, not_or]
    exact ⟨⟨⟨no_lt h.1, by decide⟩, no_lt h.2⟩, by decide⟩
  | stamp t => exact fun hm => by cases hm

theorem stage_step (q : Cue) (h : q.Ok) :
    DistR vttClass (stage 0 q) (stage 1 q) ∧ DistR vttVoice (stage 1 q) (stage 2 q) ∧ DistR vttRuby (stage 2 q) (stage 3 q) ∧
    DistR vttStamp (stage 3 q) (stage 4 q) := by
  have hf := event_free q h
  have c1 : DistR vttClass q.event q.event := clear_free rfl hf
  have c2 : DistR vttVoice q.event q.event := clear_free rfl hf
  have c3 : DistR vttRuby q.event q.event := clear_free rfl hf
  have c4 : DistR vttStamp q.event q.event := clear_free rfl hf
  cases q with
  | plain t => exact ⟨c1, c2, c3, c4⟩
  | cls n x =>
    refine ⟨?_, c2, c3, c4⟩
    exact distR_match (by simp [stage]) fun rest => inner_cls n h.1 _ (no_lt h.2) rest
  | voice b n x =>
    obtain ⟨h1, h2, h3, h4, h5⟩ := h
    refine ⟨?_, ?_, c3, c4⟩
    · exact distR_append (distR_append (distR_append (distR_append (distR_append (distR_clear (by decide))
        (clear_free rfl fun hm => (white_not (h2 _ hm)).1 rfl)) (clear_free rfl h3.2.1)) (clear_free rfl (by decide)))
        (clear_free rfl (no_lt h5))) (distR_clear (by decide))
    · exact distR_match (by simp [stage]) fun rest => inner_voice b n h1 h2 h3 h4 _ (no_lt h5) rest
  | ruby x y =>
    refine ⟨?_, ?_, ?_, c4⟩
    · exact distR_append (distR_append (distR_append (distR_append (distR_clear (by decide)) (clear_free rfl (no_lt h.1)))
        (distR_clear (by decide))) (clear_free rfl (no_lt h.2))) (distR_clear (by decide))
    · exact distR_append (distR_append (distR_append (distR_append (distR_clear (by decide)) (clear_free rfl (no_lt h.1)))
        (distR_clear (by decide))) (clear_free rfl (no_lt h.2))) (distR_clear (by decide))
    · exact distR_match (by simp [stage]) fun rest => inner_ruby _ _ (no_lt h.1) (no_lt h.2) rest
  | stamp t =>
    obtain ⟨h1, h2⟩ := h
    refine ⟨clear_stamp rfl (by decide) h1 h2, clear_stamp rfl (by decide) h1 h2, clear_stamp rfl (by decide) h1 h2, ?_⟩
    exact distR_match (by simp [stage]) fun rest => inner_stamp t h1 h2 rest

/-- **C99 (WebVTT markup).** In an imported cue switches become their tags, classes colours, voices fonts, annotations parentheses
after their base, and time stamps disappear, wherever they stand and whatever they hold; everything else is kept.

Missing: tags with attributes of other kinds, spans within spans. -/
theorem C99_vtt_markup_partial (l : List Cue) (h : ∀ q ∈ l, q.Ok) : vttToAss (l.flatMap Cue.vtt) = l.flatMap Cue.event := by
  unfold vttToAss
  simp only []
  rw [dist_all (F := replaces vttTags) rfl fun q hq => stage0 q (h q hq), distR_all fun q hq => (stage_step q (h q hq)).1,
    distR_all fun q hq => (stage_step q (h q hq)).2.1, distR_all fun q hq => (stage_step q (h q hq)).2.2.1,
    distR_all fun q hq => (stage_step q (h q hq)).2.2.2]
  refine flatMap_congr fun q _ => ?_
  cases q <;> rfl

def someCues : List Cue :=
  [.plain (.ch 'a'), .cls "red".toList [.on .b, .ch 'x', .off .b], .stamp "00:01.5".toList, .voice "  ".toList "Bob".toList [.ch 'y'],
    .ruby [.ch 'k'] [.on .i, .ch 'r']]

example : someCues.flatMap Cue.vtt = "a<c.red><b>x</b></c><00:01.5><v  Bob>y</v><ruby>k<rt><i>r</rt></ruby>".toList ∧
    someCues.flatMap Cue.event = "a{\\c&Hred&}{\\b1}x{\\b0}{\\c}{\\fnBob}y{\\fn}k({\\i1}r)".toList := by decide +kernel

example : ∀ q ∈ someCues, q.Ok := by
  have hw : ∀ c ∈ "  ".toList, White c := by intro c hc; simp at hc; subst hc; exact .inr (.inl rfl)
  have hB : ¬ White 'B' := by unfold White; have : ('B' : Char).toNat = 66 := rfl; rw [this]; omega
  intro q hq
  simp only [someCues, List.mem_cons, List.not_mem_nil, or_false] at hq
  rcases hq with rfl | rfl | rfl | rfl | rfl
  · show Inner _; unfold Inner; decide
  · refine ⟨⟨by decide, by decide, by decide⟩, ?_⟩; unfold Inner; decide
  · exact ⟨by decide, by decide⟩
  · refine ⟨by decide, hw, ⟨by decide, by decide, by decide⟩, ?_, ?_⟩
    · intro c hc
      have e : c = 'B' := by
        have : ("Bob".toList).head? = some 'B' := by decide
        rw [this] at hc
        cases hc
        rfl
      rw [e]
      exact hB
    · unfold Inner; decide
  · constructor <;> (unfold Inner; decide)

/-! ## SRT -/

/-- The stages: switches, colours, ends. -/
def partStage : Nat → Part → Str
  | n, .colour o h c d => if n = 0 then (Part.colour o h c d).srt else (Part.colour o h c d).event
  | n, .close => if n ≤ 1 then Part.close.srt else Part.close.event
  | n, .face m => if n ≤ 2 then (Part.face m).srt else (Part.face m).event
  | _, .plain t => t.ass

theorem hex_free {d : Str} (h : ∀ c ∈ d, c ∈ "0123456789abcdefABCDEF".toList) : '<' ∉ d :=
  fun hm => absurd (h _ hm) (by decide)

theorem part0 (q : Part) (h : q.Ok) : Dist (replaces srtTags) q.srt (partStage 0 q) := by
  cases q with
  | plain t => exact dist_srt t h
  | colour o hs c d =>
    exact dist_append (dist_append (dist_append (dist_append (dist_append (dist_lit (by decide))
      (dist_lit (by cases o <;> decide))) (dist_lit (by cases hs <;> decide))) (dist_free (by decide) (hex_free h.2)))
      (dist_lit (by cases c <;> decide))) (dist_lit (by decide))
  | face n => exact dist_append (dist_append (dist_lit (by decide)) (dist_free (by decide) h.2.1)) (dist_lit (by decide))
  | close => exact dist_lit (by decide)

theorem skip_some (c : Char) (s : Str) : skipOpt c (c :: s) = s := by simp [skipOpt]
theorem skip_none {c d : Char} (h : d ≠ c) (s : Str) : skipOpt c (d :: s) = d :: s := by simp [skipOpt, h]

theorem inner_colour (o hs c : Bool) (d : Str) (h1 : d.length = 6) (h2 : ∀ c ∈ d, c ∈ "0123456789abcdefABCDEF".toList) (rest : Str) :
    fontColour ((Part.colour o hs c d).srt ++ rest) = some ((Part.colour o hs c d).event, rest) := by
  have key : ∀ c ∈ "0123456789abcdefABCDEF".toList, isHexDigit c = true ∧ c ≠ '"' ∧ c ≠ '#' := by decide
  have e : (Part.colour o hs c d).srt ++ rest = "<font color=".toList ++ ((if o then ['"'] else []) ++ ((if hs then ['#'] else []) ++ (d ++
      ((if c then ['"'] else []) ++ '>' :: rest)))) := by
    show "<font color=".toList ++ (if o then ['"'] else []) ++ (if hs then ['#'] else []) ++ d ++
      (if c then ['"'] else []) ++ ['>'] ++ rest = _
    simp only [List.append_assoc, List.cons_append, List.nil_append]
  unfold fontColour lit
  rw [e, stripPrefix_append]
  cases d with
  | nil => cases h1
  | cons x d =>
    have hx := key x (h2 x (by simp))
    have f1 : ∀ s : Str, skipOpt '#' (skipOpt '"' ((if o then ['"'] else []) ++ ((if hs then ['#'] else []) ++ ((x :: d) ++ s)))) =
        (x :: d) ++ s := by
      intro s
      cases o <;> cases hs <;> simp only [Bool.false_eq_true, if_false, if_true, List.nil_append, List.cons_append]
      · rw [skip_none hx.2.1, skip_none hx.2.2]
      · rw [skip_none (by decide), skip_some]
      · rw [skip_some, skip_none hx.2.2]
      · rw [skip_some, skip_some]
    have f2 : ∀ s : Str, ((x :: d) ++ s).take 6 = x :: d := by
      intro s
      rw [List.take_append_of_le_length (by omega), List.take_of_length_le (by omega)]
    have f3 : ∀ s : Str, ((x :: d) ++ s).drop 6 = s := by
      intro s
      rw [← h1, List.drop_left]
    have f4 : skipOpt '"' ((if c then ['"'] else []) ++ '>' :: rest) = '>' :: rest := by
      cases c
      · exact skip_none (by decide) rest
      · exact skip_some _ _
    simp only [f1, f2, f3, f4]
    rw [if_pos ⟨h1, List.all_eq_true.mpr fun c hc => (key c (h2 c hc)).1⟩]
    rfl

theorem inner_face (n : Str) (h1 : n ≠ []) (h2 : '"' ∉ n) (rest : Str) :
    fontFace ((Part.face n).srt ++ rest) = some ((Part.face n).event, rest) := by
  unfold fontFace lit
  rw [show (Part.face n).srt ++ rest = "<font face=\"".toList ++ (n ++ '"' :: '>' :: rest) by
    show "<font face=\"".toList ++ n ++ ['"', '>'] ++ rest = _
    simp only [List.append_assoc, List.cons_append, List.nil_append], stripPrefix_append]
  simp only [upTo1, splitOnce_append _ h2]
  cases n with
  | nil => exact (h1 rfl).elim
  | cons c n => rfl

theorem part_free (q : Part) (h : q.Ok) : '<' ∉ q.event := by
  cases q with
  | plain t =>
    have := not_mem_ass (q := '<') (l := [t]) (by
      intro c hc e
      simp only [List.mem_singleton] at hc
      exact h (by rw [← hc, e])) (by decide)
    rw [ass_one] at this
    exact this
  | colour o hs c d =>
    simp only [Part.event, List.mem_append, not_or]
    exact ⟨⟨by decide, hex_free h.2⟩, by decide⟩
  | face n =>
    simp only [Part.event, List.mem_append, not_or]
    exact ⟨⟨by decide, h.2.1⟩, by decide⟩
  | close => decide

theorem part_step (q : Part) (h : q.Ok) :
    DistR fontColour (partStage 0 q) (partStage 1 q) ∧ Dist (replaceAll "</font>".toList "{\\c}".toList) (partStage 1 q) (partStage 2 q) ∧
    DistR fontFace (partStage 2 q) (partStage 3 q) := by
  have hf := part_free q h
  have c1 : DistR fontColour q.event q.event := clear_free rfl hf
  have c2 : Dist (replaceAll "</font>".toList "{\\c}".toList) q.event q.event :=
    fun rest => replaceAll_clear (clear_none (p := '<') (ps := "/font>".toList) hf) rest
  have c3 : DistR fontFace q.event q.event := clear_free rfl hf
  cases q with
  | plain t => exact ⟨c1, c2, c3⟩
  | colour o hs c d => exact ⟨distR_match (fun e => by cases e) fun rest => inner_colour o hs c d h.1 h.2 rest, c2, c3⟩
  | close =>
    refine ⟨distR_clear (by decide), ?_, c3⟩
    exact fun rest => replaceAll_prefix _ (by decide) rest
  | face n =>
    refine ⟨?_, ?_, distR_match (fun e => by cases e) fun rest => inner_face n h.1 h.2.2 rest⟩
    · exact distR_append (distR_append (distR_clear (by decide)) (clear_free rfl h.2.1)) (clear_free rfl (by decide))
    · refine dist_append (dist_append ?_ ?_) ?_
      · exact fun rest => replaceAll_clear (by decide) rest
      · exact fun rest => replaceAll_clear (clear_none (p := '<') (ps := "/font>".toList) h.2.1) rest
      · exact fun rest => replaceAll_clear (by decide) rest

/-- **C99 (SRT markup).** In an imported subtitle switches become their tags, colours (with or without quotes and number sign)
and fonts too, wherever they stand; everything else is kept.

Missing: the end of a font resets the colour instead of the font (`C99_font_end_violated`); tags with other attributes. -/
theorem C99_srt_markup_partial (l : List Part) (h : ∀ q ∈ l, q.Ok) : srtToAss (l.flatMap Part.srt) = l.flatMap Part.event := by
  unfold srtToAss
  simp only []
  rw [dist_all (F := replaces srtTags) rfl fun q hq => part0 q (h q hq), distR_all fun q hq => (part_step q (h q hq)).1,
    dist_all (by rfl) fun q hq => (part_step q (h q hq)).2.1, distR_all fun q hq => (part_step q (h q hq)).2.2]
  refine flatMap_congr fun q _ => ?_
  cases q <;> rfl

def someParts : List Part := [.colour true true true "00ffAA".toList, .plain (.on .s), .face "Arial".toList, .plain (.ch 'x'), .close]

example : someParts.flatMap Part.srt = "<font color=\"#00ffAA\"><s><font face=\"Arial\">x</font>".toList ∧
    someParts.flatMap Part.event = "{\\c&H00ffAA&}{\\s1}{\\fnArial}x{\\c}".toList := by decide +kernel

example : ∀ q ∈ someParts, q.Ok := by
  intro q hq
  simp only [someParts, List.mem_cons, List.not_mem_nil, or_false] at hq
  rcases hq with rfl | rfl | rfl | rfl | rfl
  · exact ⟨by decide, by decide⟩
  · show _ ≠ _; decide
  · exact ⟨by decide, by decide, by decide⟩
  · show _ ≠ _; decide
  · exact trivial

/-- **C99 (SRT markup), violated.** The end of a font becomes the end of a colour: text after it keeps the font and loses the
colour set before. -/
theorem C99_font_end_violated :
    srtToAss "<font color=\"#0000FF\">a<font face=\"Arial\">b</font>c</font>".toList =
      "{\\c&H0000FF&}a{\\fnArial}b{\\c}c{\\c}".toList := by decide +kernel

/-- **C99 (export), violated.** A backslash and `fn` in the text, outside of any tag, become a font. -/
theorem C99_font_text_violated :
    assToSrt "C:\\fnord} x".toList = "C:<font face=\"ord\">} x".toList ∧
    assToVtt "C:\\fnord} x".toList = "C:<v ord>} x".toList := by decide +kernel

end Verif.Props.Markup
