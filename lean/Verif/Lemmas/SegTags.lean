import Verif.Lemmas.Segment
namespace Verif.Segment
open Verif Verif.Spec.Segment
open Verif.Spec (HexByte)
open Verif.Spec.Ovr (Letter)
open Verif.Spec.EventCmd (csv Trimmed)
open Verif.Transform (trimStartStr trimEndChar)
open Verif.Color (Rgba)

theorem extract_digit {d l : Char} {a : Str} (hd : Override.isDig d = true) (hl : l.utf8Size = 1) :
    extract (d :: l :: a) = .ok ([d, l], a) := by
  have h1 : d.utf8Size = 1 := Override.size_one (by
    have := (Override.isDig_iff d).1 hd
    unfold Verif.Spec.Ovr.Digit at this
    omega)
  have hf : d ≠ 'f' := by
    intro e
    subst e
    revert hd
    decide
  have hs : stripPrefix "fn".toList (d :: l :: a) = none := by
    rw [stripPrefix_eq_none]
    intro t e
    simp at e
    exact hf e.1
  have ht : takeBytes (d :: l :: a) 2 = some [d, l] := by
    simp [takeBytes, h1, hl]
  unfold extract
  rw [hs]
  simp only
  rw [if_pos hd, if_pos (by simp only [byteLen_cons]; omega), ht]
  rfl

/-- An argument that follows a name at once. -/
def Stops (a : Str) : Prop := ∀ c, a.head? = some c → ¬ Letter c

theorem stops_paren (l : List Str) : Stops (paren l) := by
  intro c hc
  simp [paren] at hc
  subst hc
  unfold Letter; decide

theorem stops_dec (n : Nat) : Stops (dec n) := by
  intro c hc
  have := showNat_digits n c (List.mem_of_mem_head? hc)
  have h := (Override.isDigit_iff c).1 this
  unfold Verif.Spec.Ovr.Digit at h
  unfold Letter
  omega

theorem stops_amp (s : Str) : Stops ('&' :: s) := by
  intro c hc
  simp at hc
  subst hc
  unfold Letter; decide

/-- A name of letters that is not the font name. -/
def plainName (n : Str) : Bool := n != [] && n.all Override.isAlpha && (stripPrefix "fn".toList n).isNone

theorem extract_plain {n a : Str} (hn : plainName n = true) (ha : Stops a) : extract (n ++ a) = .ok (n, a) := by
  unfold plainName at hn
  simp only [Bool.and_eq_true, bne_iff_ne, ne_eq, List.all_eq_true, Option.isNone_iff_eq_none] at hn
  exact extract_letters hn.1.1 hn.1.2 ha hn.2

/-- A digit and a letter. -/
def digitName : Str → Bool
  | [d, l] => Override.isDig d && (l.utf8Size == 1)
  | _ => false

theorem extract_name {n a : Str} (hn : plainName n = true ∨ digitName n = true) (ha : Stops a) : extract (n ++ a) = .ok (n, a) := by
  rcases hn with hn | hn
  · exact extract_plain hn ha
  · match n, hn with
    | [d, l], hn =>
      simp only [digitName, Bool.and_eq_true, beq_iff_eq] at hn
      exact extract_digit hn.1 hn.2

theorem number_ok : ∀ p ∈ numberTags, plainName p.1 = true ∧ colorTag p.1 = none ∧ alphaTag p.1 = none ∧ numberTag p.1 = some p.2 := by
  decide

theorem color_ok : ∀ p ∈ colorTags, (plainName p.1 = true ∨ digitName p.1 = true) ∧ colorTag p.1 = some p.2 := by decide

theorem alpha_ok : ∀ p ∈ alphaTags, (plainName p.1 = true ∨ digitName p.1 = true) ∧ colorTag p.1 = none ∧ alphaTag p.1 = some p.2 := by
  decide

theorem flag_ok : ∀ p ∈ flagTags, plainName p.1 = true ∧ colorTag p.1 = none ∧ alphaTag p.1 = none ∧ numberTag p.1 = none ∧
    flagTag p.1 = some p.2 := by decide

theorem byte_ok : ∀ p ∈ byteTags, plainName p.1 = true ∧ colorTag p.1 = none ∧ alphaTag p.1 = none ∧ numberTag p.1 = none ∧
    flagTag p.1 = none ∧ byteTag p.1 = some p.2 := by decide

theorem karaoke_ok : ∀ p ∈ karaokeTags, plainName p.1 = true ∧ colorTag p.1 = none ∧ alphaTag p.1 = none ∧ numberTag p.1 = none ∧
    flagTag p.1 = none ∧ byteTag p.1 = none ∧ karaokeTag p.1 = some p.2 := by decide

/-- None of the tables has the name. -/
def unlisted (n : Str) : Prop :=
  colorTag n = none ∧ alphaTag n = none ∧ numberTag n = none ∧ flagTag n = none ∧ byteTag n = none ∧ karaokeTag n = none

instance (n : Str) : Decidable (unlisted n) := by unfold unlisted; infer_instance

theorem applyTag_other {n : Str} (h : unlisted n) (f32 : Str → Option Rat) (a : Str) (t : Tags) :
    applyTag f32 n a t = otherTag f32 n a t := by
  obtain ⟨h1, h2, h3, h4, h5, h6⟩ := h
  unfold applyTag
  rw [h1, h2, h3, h4, h5, h6]

/-! ## Arguments in parentheses -/

theorem mem_csv {c : Char} (hc : c ≠ ',') : ∀ {l : List Str}, (∀ x ∈ l, c ∉ x) → c ∉ csv l
  | [], _ => by simp [csv]
  | [x], h => by rw [csv]; exact h x (by simp)
  | x :: y :: l, h => by
    rw [csv]
    intro hm
    rcases List.mem_append.1 hm with hm | hm
    · exact h x (by simp) hm
    · rcases List.mem_cons.1 hm with hm | hm
      · exact hc hm
      · exact mem_csv hc (fun z hz => h z (by simp [hz])) hm

/-- A text without commas and parentheses. -/
def Free (s : Str) : Prop := ',' ∉ s ∧ '(' ∉ s ∧ ')' ∉ s

theorem parts_paren {l : List Str} (hl : l ≠ []) (h : ∀ x ∈ l, Free x) : parts (paren l) = l := by
  have h1 : '(' ∉ csv l := mem_csv (by decide) (fun x hx => (h x hx).2.1)
  have h2 : ')' ∉ csv l := mem_csv (by decide) (fun x hx => (h x hx).2.2)
  unfold parts unparen
  have e : (paren l).dropWhile (· == '(') = csv l ++ [')'] := by
    unfold paren
    rw [List.cons_append, List.dropWhile_cons_of_pos (by simp)]
    cases hc : csv l with
    | nil => rfl
    | cons c s =>
      rw [List.cons_append, List.dropWhile_cons_of_neg]
      intro hcc
      exact h1 (by rw [hc, beq_iff_eq.1 hcc]; simp)
  rw [e, Transform.trimEndChar_snoc (Transform.getLast_no h2)]
  exact StyleCmd.splitOn_csv hl (fun x hx => (h x hx).1)

theorem item_ok {f32 : Str → Option Rat} {s : Str} {v : Rat} (h : Item f32 s v) : Free s ∧ f32 (trim s) = some v := by
  obtain ⟨a, b, c, e, ha, hc, hv, ht, h1, h2, h3⟩ := h
  have no : ∀ d : Char, d ≠ ' ' → d ∉ b → d ∉ s := by
    intro d hd hb hm
    rw [e] at hm
    rcases List.mem_append.1 hm with hm | hm
    · rcases List.mem_append.1 hm with hm | hm
      · exact hd (ha _ hm)
      · exact hb hm
    · exact hd (hc _ hm)
  refine ⟨⟨no _ (by decide) h1, no _ (by decide) h2, no _ (by decide) h3⟩, ?_⟩
  have hw : ∀ x : Char, x = ' ' → Verif.Spec.EventCmd.White x := by
    intro x hx; subst hx; unfold Verif.Spec.EventCmd.White; decide
  rw [e, Handlers.trim_right (fun x hx => hw x (hc x hx)), Handlers.trim_left (fun x hx => hw x (ha x hx)),
    EventCmd.trimmed_trim ht, hv]

theorem dec_free (n : Nat) : Free (dec n) ∧ trim (dec n) = dec n :=
  ⟨⟨Formats.showNat_no n ',' (by decide), Formats.showNat_no n '(' (by decide), Formats.showNat_no n ')' (by decide)⟩,
    (SrtDoc.showNat_line n).1⟩

theorem u32_dec {n : Nat} (h : n < 2 ^ 32) : parseU32 (dec n) = some n := parseU32_showNat h

theorem u8_dec {n : Nat} (h : n < 256) : parseU8 (dec n) = some n := by
  have := parseUnsigned_digits (bound := 256) (showNat_ne_nil n) (showNat_digits n)
  rw [ofDigitChars_showNat, if_pos h] at this
  exact this

theorem u32_time {n : Nat} (h : n < 2 ^ 32) : timeOr0 (some (dec n)) = n := by
  unfold timeOr0
  simp only
  rw [(dec_free n).2, u32_dec h]
  rfl

/-! ## Hexadecimal arguments -/

theorem toAmpHex_amp (s : Str) : toAmpHex ('&' :: 'H' :: s) = '&' :: 'H' :: s := by
  unfold toAmpHex
  rw [toAmpHex.go, if_pos (by simp)]
  rfl

theorem alpha_arg {p : Str} {v : Nat} (h : HexByte p v) : parseAlpha ('&' :: 'H' :: p ++ ['&']) = some (255 - v) := by
  obtain ⟨h1, h2, h3, h4⟩ := h.props
  have hno : ∀ d, stripPrefix ['&', d] (p ++ ['&']) = none := by
    intro d
    rw [stripPrefix_eq_none]
    intro t e
    cases p with
    | nil => simp at h2
    | cons c p =>
      simp at e
      exact (h1 c (by simp)).2.1 e.1
  have hparse : parseUnsigned 16 256 p = some v := by
    apply Color.parseUnsigned_no_plus (by intro e; rw [e] at h2; cases h2) (fun hm => (h1 _ hm).2.2.1 rfl) _ h3
    have := h4 0
    simpa using this
  have stop : ∀ n d, trimStartStr ['&', d] n (p ++ ['&']) = p ++ ['&'] := by
    intro n d
    cases n with
    | zero => rfl
    | succ n => rw [trimStartStr, hno]
  unfold parseAlpha
  rw [List.cons_append, List.cons_append, toAmpHex_amp]
  simp only
  have e1 : trimStartStr "&H".toList ('&' :: 'H' :: (p ++ ['&'])).length ('&' :: 'H' :: (p ++ ['&'])) = p ++ ['&'] := by
    rw [List.length_cons, trimStartStr]
    have : stripPrefix "&H".toList ('&' :: 'H' :: (p ++ ['&'])) = some (p ++ ['&']) := by
      rw [stripPrefix_iff]; rfl
    rw [this]
    exact stop _ _
  rw [e1, show trimStartStr "&h".toList _ (p ++ ['&']) = p ++ ['&'] from stop _ _,
    Transform.trimEndChar_snoc (Transform.getLast_no (fun hm => (h1 _ hm).2.1 rfl)), hparse]
  rfl

theorem color_arg {pb pg pr : Str} {b g r : Nat} (hb : HexByte pb b) (hg : HexByte pg g) (hr : HexByte pr r) :
    parseColor ('&' :: 'H' :: (pb ++ pg ++ pr) ++ ['&']) = some ⟨r, g, b, 0⟩ := by
  unfold parseColor
  rw [List.cons_append, List.cons_append, toAmpHex_amp]
  exact Transform.color_arg (f32 := fun _ => none) (c := ⟨r, g, b, 0⟩) (.inl ⟨pb, pg, pr, hb, hg, hr, rfl, .inl rfl⟩)

/-! ## Every tag -/

theorem sets_ok {f32 : Str → Option Rat} {p : Str} {f : Field} {v : Val} (h : Sets f32 p f v) :
    ∃ n a, extract p = .ok (n, a) ∧ ∀ t, applyTag f32 n a t = .ok (t.setOpt f (some v)) := by
  cases h with
  | number n f a v h ha hc =>
    obtain ⟨h1, h2, h3, h4⟩ := number_ok _ h
    refine ⟨n, a, extract_plain h1 hc, fun t => ?_⟩
    unfold applyTag
    simp only at h2 h3 h4
    rw [h2, h3, h4]
    simp only [ha, Option.map_some]
  | color n f p pb pg pr b g r h hp hb hg hr =>
    obtain ⟨h1, h2⟩ := color_ok _ h
    subst hp
    simp only at h2
    refine ⟨n, _, by simpa using extract_name h1 (stops_amp ('H' :: (pb ++ pg ++ pr) ++ ['&'])), fun t => ?_⟩
    unfold applyTag
    rw [h2]
    simp only [Option.map_some]
    have := color_arg hb hg hr
    simp only [List.cons_append, List.append_assoc] at this
    rw [this]
    rfl
  | alpha n f p v h hp =>
    obtain ⟨h1, h2, h3⟩ := alpha_ok _ h
    simp only at h2 h3
    refine ⟨n, _, by simpa using extract_name h1 (stops_amp ('H' :: p ++ ['&'])), fun t => ?_⟩
    unfold applyTag
    rw [h2, h3]
    simp only
    have := alpha_arg hp
    simp only [List.cons_append] at this
    rw [this]
    rfl
  | flag n f b h =>
    obtain ⟨h1, h2, h3, h4, h5⟩ := flag_ok _ h
    simp only at h2 h3 h4 h5
    refine ⟨n, _, extract_plain h1 (by intro c hc; simp at hc; subst hc; unfold Letter; cases b <;> decide), fun t => ?_⟩
    unfold applyTag
    rw [h2, h3, h4, h5]
    cases b <;> rfl
  | byte n f v h hv =>
    obtain ⟨h1, h2, h3, h4, h5, h6⟩ := byte_ok _ h
    simp only at h2 h3 h4 h5 h6
    refine ⟨n, _, extract_plain h1 (stops_dec v), fun t => ?_⟩
    unfold applyTag
    rw [h2, h3, h4, h5, h6]
    simp only
    rw [u8_dec hv]
    rfl
  | karaoke n k d h hd =>
    obtain ⟨h1, h2, h3, h4, h5, h6, h7⟩ := karaoke_ok _ h
    simp only at h2 h3 h4 h5 h6 h7
    refine ⟨n, _, extract_plain h1 (stops_dec d), fun t => ?_⟩
    unfold applyTag
    rw [h2, h3, h4, h5, h6, h7]
    simp only
    rw [u32_dec hd]
    rfl
  | font a h =>
    refine ⟨"fn".toList, a, ?_, fun t => ?_⟩
    · unfold extract
      rw [stripPrefix_append]
      cases a with
      | nil => exact absurd rfl h
      | cons c a => rfl
    · rw [applyTag_other (by decide)]
      unfold otherTag
      rw [if_pos rfl, if_neg h]
  | pos a b x y hx hy =>
    refine ⟨"pos".toList, _, extract_plain (by decide) (stops_paren _), fun t => ?_⟩
    rw [applyTag_other (by decide)]
    show Outcome.ok (t.setOpt .position ((parsePos f32 (paren [a, b])).map (fun p => .point p.1 p.2))) = _
    have : parsePos f32 (paren [a, b]) = some (x, y) := by
      unfold parsePos
      rw [parts_paren (by simp) (by simp [(item_ok hx).1, (item_ok hy).1])]
      simp only
      rw [(item_ok hx).2, (item_ok hy).2]
    rw [this]
    rfl
  | org a b x y hx hy =>
    refine ⟨"org".toList, _, extract_plain (by decide) (stops_paren _), fun t => ?_⟩
    rw [applyTag_other (by decide)]
    show Outcome.ok (t.setOpt .origin ((parsePos f32 (paren [a, b])).map (fun p => .point p.1 p.2))) = _
    have : parsePos f32 (paren [a, b]) = some (x, y) := by
      unfold parsePos
      rw [parts_paren (by simp) (by simp [(item_ok hx).1, (item_ok hy).1])]
      simp only
      rw [(item_ok hx).2, (item_ok hy).2]
    rw [this]
    rfl
  | move a b c d x1 y1 x2 y2 h1 h2 h3 h4 =>
    refine ⟨"move".toList, _, extract_plain (by decide) (stops_paren _), fun t => ?_⟩
    rw [applyTag_other (by decide)]
    show Outcome.ok (t.setOpt .movement ((parseMove f32 (paren [a, b, c, d])).map .move)) = _
    have : parseMove f32 (paren [a, b, c, d]) = some ⟨x1, y1, x2, y2, 0, 0⟩ := by
      unfold parseMove
      rw [parts_paren (by simp) (by simp [(item_ok h1).1, (item_ok h2).1, (item_ok h3).1, (item_ok h4).1])]
      simp only
      rw [(item_ok h1).2, (item_ok h2).2, (item_ok h3).2, (item_ok h4).2]
      rfl
    rw [this]
    rfl
  | moveTimed a b c d x1 y1 x2 y2 t1 t2 h1 h2 h3 h4 ht1 ht2 =>
    refine ⟨"move".toList, _, extract_plain (by decide) (stops_paren _), fun t => ?_⟩
    rw [applyTag_other (by decide)]
    show Outcome.ok (t.setOpt .movement ((parseMove f32 (paren [a, b, c, d, dec t1, dec t2])).map .move)) = _
    have : parseMove f32 (paren [a, b, c, d, dec t1, dec t2]) = some ⟨x1, y1, x2, y2, t1 / 10, t2 / 10⟩ := by
      unfold parseMove
      rw [parts_paren (by simp) (by
        simp [(item_ok h1).1, (item_ok h2).1, (item_ok h3).1, (item_ok h4).1, (dec_free t1).1, (dec_free t2).1])]
      simp only [List.getElem?_cons_zero, List.getElem?_cons_succ]
      rw [(item_ok h1).2, (item_ok h2).2, (item_ok h3).2, (item_ok h4).2, u32_time ht1, u32_time ht2]
    rw [this]
    rfl
  | clip i a b c d x1 y1 x2 y2 h1 h2 h3 h4 =>
    have hp : ∀ j, parseClip f32 j (paren [a, b, c, d]) = some ⟨x1, y1, x2, y2, j⟩ := by
      intro j
      unfold parseClip
      rw [parts_paren (by simp) (by simp [(item_ok h1).1, (item_ok h2).1, (item_ok h3).1, (item_ok h4).1])]
      simp only
      rw [(item_ok h1).2, (item_ok h2).2, (item_ok h3).2, (item_ok h4).2]
    cases i with
    | true =>
      refine ⟨"iclip".toList, _, extract_plain (by decide) (stops_paren _), fun t => ?_⟩
      rw [applyTag_other (by decide)]
      show Outcome.ok (t.setOpt .clip ((parseClip f32 true (paren [a, b, c, d])).map .clip)) = _
      rw [hp]
      rfl
    | false =>
      refine ⟨"clip".toList, _, extract_plain (by decide) (stops_paren _), fun t => ?_⟩
      rw [applyTag_other (by decide)]
      show Outcome.ok (t.setOpt .clip ((parseClip f32 false (paren [a, b, c, d])).map .clip)) = _
      rw [hp]
      rfl
  | fad i o hi ho =>
    refine ⟨"fad".toList, _, extract_plain (by decide) (stops_paren _), fun t => ?_⟩
    rw [applyTag_other (by decide)]
    have : parseFade (paren [dec i, dec o]) = .ok (some ⟨0, 0, i / 10, o / 10, none, none, none⟩) := by
      unfold parseFade
      rw [parts_paren (by simp) (by simp [(dec_free i).1, (dec_free o).1])]
      simp only
      rw [(dec_free i).2, (dec_free o).2, u32_dec hi, u32_dec ho]
    show (match parseFade (paren [dec i, dec o]) with
      | .ok o => Outcome.ok (t.setOpt .fade (o.map .fade)) | .err => .err | .panic => .panic) = _
    rw [this]
    rfl
  | fade a1 a2 a3 t1 t2 t3 t4 h1 h2 h3 h12 h34 g2 g4 =>
    refine ⟨"fade".toList, _, extract_plain (by decide) (stops_paren _), fun t => ?_⟩
    rw [applyTag_other (by decide)]
    have : parseFade (paren [dec a1, dec a2, dec a3, dec t1, dec t2, dec t3, dec t4]) =
        .ok (some ⟨a1, a3, t1 / 10, t4 / 10, some a2, some (t2 / 10 - t1 / 10), some (t4 / 10 - t3 / 10)⟩) := by
      unfold parseFade
      rw [parts_paren (by simp) (by
        simp [(dec_free a1).1, (dec_free a2).1, (dec_free a3).1, (dec_free t1).1, (dec_free t2).1, (dec_free t3).1, (dec_free t4).1])]
      simp only
      rw [(dec_free a1).2, (dec_free a2).2, (dec_free a3).2, (dec_free t1).2, (dec_free t2).2, (dec_free t3).2, (dec_free t4).2,
        u8_dec h1, u8_dec h2, u8_dec h3, u32_dec (Nat.lt_of_le_of_lt h12 g2), u32_dec g2, u32_dec (Nat.lt_of_le_of_lt h34 g4),
        u32_dec g4]
      simp only
      unfold longFade
      rw [if_neg]
      have := Nat.div_le_div_right (c := 10) h12
      have := Nat.div_le_div_right (c := 10) h34
      omega
    show (match parseFade (paren [dec a1, dec a2, dec a3, dec t1, dec t2, dec t3, dec t4]) with
      | .ok o => Outcome.ok (t.setOpt .fade (o.map .fade)) | .err => .err | .panic => .panic) = _
    rw [this]
    rfl

theorem sets_ne {f32 : Str → Option Rat} {p : Str} {f : Field} {v : Val} (h : Sets f32 p f v) : p ≠ [] := by
  obtain ⟨n, a, he, hs⟩ := sets_ok h
  intro e
  subst e
  have : extract [] = .ok ([], []) := by decide
  rw [this] at he
  injection he with he
  injection he with e1 e2
  subst e1 e2
  have h1 := hs Tags.default
  rw [applyTag_other (by decide)] at h1
  have h2 : otherTag f32 [] [] Tags.default = .ok Tags.default := rfl
  rw [h2] at h1
  injection h1 with h1
  have := congrArg Tags.vals h1
  simp [Tags.default, Tags.setOpt, Map.insert] at this

theorem block_ok {f32 : Str → Option Rat} (l : List Entry) (h : Good f32 l) (t : Tags) :
    ∃ u, processBlock f32 (blockText l) t = .ok u ∧ u.transforms = t.transforms ∧
      ∀ f, valueOf u f = (lastSet f (l.map (fun e => (e.field, e.val)))).or (valueOf t f) := by
  unfold processBlock blockText
  rw [splitTags_tagsText]
  · induction l generalizing t with
    | nil => exact ⟨t, rfl, rfl, fun f => rfl⟩
    | cons e l ih =>
      obtain ⟨n, a, he, hs⟩ := sets_ok (h e (by simp)).1
      obtain ⟨u, h1, h2, h3⟩ := ih (fun x hx => h x (List.mem_cons_of_mem _ hx)) (t.setOpt e.field (some e.val))
      refine ⟨u, ?_, by rw [h2, setOpt_transforms], fun f => ?_⟩
      · rw [List.map_cons, applyParts, he]
        simp only
        rw [hs]
        exact h1
      · rw [h3, read_setOpt, List.map_cons, lastSet]
        cases lastSet f (l.map (fun e => (e.field, e.val))) with
        | some v => rfl
        | none =>
          by_cases hf : f = e.field
          · simp [hf]
          · have : ¬ e.field = f := fun x => hf x.symm
            simp [hf, this]
  · intro p hp
    obtain ⟨e, he, rfl⟩ := List.mem_map.1 hp
    exact ⟨(h e he).2, sets_ne (h e he).1⟩

theorem lastSet_append (f : Field) (l m : List (Field × Val)) : lastSet f (l ++ m) = (lastSet f m).or (lastSet f l) := by
  induction l with
  | nil => cases h : lastSet f m <;> simp [lastSet, h]
  | cons p l ih =>
    rw [List.cons_append, lastSet, lastSet, ih]
    cases lastSet f m <;> rfl

theorem after_ok {f32 : Str → Option Rat} (ls : List (List Entry)) (h : ∀ l ∈ ls, Good f32 l) :
    ∀ {t u : Tags}, After (Step f32) t (ls.map blockText) u →
      u.transforms = t.transforms ∧
      ∀ f, valueOf u f = (lastSet f (ls.flatten.map (fun e => (e.field, e.val)))).or (valueOf t f) := by
  induction ls with
  | nil =>
    intro t u ha
    cases ha
    exact ⟨rfl, fun f => rfl⟩
  | cons l ls ih =>
    intro t u ha
    cases ha with
    | more _ w _ _ _ hb hs =>
      obtain ⟨w', h1, h2, h3⟩ := block_ok l (h l (by simp)) t
      have hb : processBlock f32 (blockText l) t = .ok w := hb
      rw [h1] at hb
      injection hb with hb
      subst hb
      obtain ⟨h4, h5⟩ := ih (fun x hx => h x (List.mem_cons_of_mem _ hx)) hs
      refine ⟨by rw [h4, h2], fun f => ?_⟩
      rw [h5, h3, List.flatten_cons, List.map_append, lastSet_append, Option.or_assoc]

theorem applyParts_append (f32 : Str → Option Rat) (ps qs : List Str) (t : Tags) :
    applyParts f32 (ps ++ qs) t = match applyParts f32 ps t with
      | .ok u => applyParts f32 qs u
      | .err => .err
      | .panic => .panic := by
  induction ps generalizing t with
  | nil => rfl
  | cons p ps ih =>
    rw [List.cons_append, applyParts, applyParts]
    cases extract p with
    | err => rfl
    | panic => rfl
    | ok na =>
      simp only
      cases applyTag f32 na.1 na.2 t with
      | err => rfl
      | panic => rfl
      | ok u => exact ih u

theorem unknown_ok {n : Str} (h : n ∉ knownNames) (hd : ∀ c, n.head? = some c → Letter c) : unlisted n ∧ ∀ f32 a t, otherTag f32 n a t = .ok t := by
  have hne : ∀ k ∈ knownNames, n ≠ k := fun k hk e => h (e ▸ hk)
  have hdig : ∀ c s, ¬ Letter c → n ≠ c :: s := by
    intro c s hc e
    exact hc (hd c (by rw [e]; rfl))
  have d1 : ∀ c, c ∈ ['1', '2', '3', '4'] → ∀ s, n ≠ c :: s := by
    intro c hc s
    apply hdig
    unfold Letter
    simp at hc
    rcases hc with rfl | rfl | rfl | rfl <;> decide
  have k : ∀ s : String, s.toList ∈ knownNames ++ ["1c", "2c", "3c", "4c", "1a", "2a", "3a", "4a"].map String.toList → n ≠ s.toList := by
    intro s hs
    rcases List.mem_append.1 hs with hs | hs
    · exact hne _ hs
    · intro e
      rw [← e] at hs
      simp at hs
      rcases hs with hs | hs | hs | hs | hs | hs | hs | hs <;> exact d1 _ (by simp) _ hs
  constructor
  · refine ⟨?_, ?_, ?_, ?_, ?_, ?_⟩
    · unfold colorTag
      rw [if_neg (not_or.2 ⟨k _ (by decide), k _ (by decide)⟩), if_neg (k _ (by decide)), if_neg (k _ (by decide)), if_neg (k _ (by decide))]
    · unfold alphaTag
      rw [if_neg (k _ (by decide)), if_neg (k _ (by decide)), if_neg (k _ (by decide)), if_neg (k _ (by decide)), if_neg (k _ (by decide))]
    · unfold numberTag
      rw [if_neg (k _ (by decide)), if_neg (k _ (by decide)), if_neg (k _ (by decide)), if_neg (k _ (by decide)), if_neg (k _ (by decide)), if_neg (k _ (by decide)), if_neg (k _ (by decide)), if_neg (k _ (by decide)),
        if_neg (not_or.2 ⟨k _ (by decide), k _ (by decide)⟩), if_neg (k _ (by decide)), if_neg (k _ (by decide)), if_neg (k _ (by decide)), if_neg (k _ (by decide)), if_neg (k _ (by decide)), if_neg (k _ (by decide)), if_neg (k _ (by decide)), if_neg (k _ (by decide))]
    · unfold flagTag
      rw [if_neg (k _ (by decide)), if_neg (k _ (by decide)), if_neg (k _ (by decide)), if_neg (k _ (by decide))]
    · unfold byteTag
      rw [if_neg (k _ (by decide)), if_neg (not_or.2 ⟨k _ (by decide), k _ (by decide)⟩), if_neg (k _ (by decide))]
    · unfold karaokeTag
      rw [if_neg (k _ (by decide)), if_neg (k _ (by decide)), if_neg (k _ (by decide)), if_neg (k _ (by decide))]
  · intro f32 a t
    unfold otherTag
    rw [if_neg (k _ (by decide)), if_neg (not_or.2 ⟨k _ (by decide), k _ (by decide)⟩), if_neg (k _ (by decide)), if_neg (k _ (by decide)), if_neg (k _ (by decide)), if_neg (k _ (by decide)),
      if_neg (not_or.2 ⟨k _ (by decide), k _ (by decide)⟩), if_neg (k _ (by decide))]

end Verif.Segment
