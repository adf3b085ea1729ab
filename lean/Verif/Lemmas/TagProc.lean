import Verif.Model.TagProc
import Verif.Lemmas.SegTags
namespace Verif.TagProc
open Verif
open Verif.Segment
open Verif.Spec.Segment
open Verif.Spec.Ovr (Letter Balanced)
open Verif.Spec (HexByte)
open Verif.Override (scanName scanArgs isAlpha isDig blockLoop parseBlock textLoop Tag Out Analysis)

/-- Reading on does not stop at `r` or `fn`. -/
def quiet : Str → Str → Bool
  | _, [] => true
  | acc, c :: n => isAlpha c && decide (acc ++ [c] ≠ "r".toList) && decide (acc ++ [c] ≠ "fn".toList) && quiet (acc ++ [c]) n

theorem isDig_not_alpha {c : Char} (h : isAlpha c = true) : isDig c = false := by
  have := (Override.isAlpha_iff c).1 h
  cases hd : isDig c with
  | false => rfl
  | true =>
    have h2 := (Override.isDig_iff c).1 hd
    unfold Letter at this
    unfold Verif.Spec.Ovr.Digit at h2
    omega

theorem scan_stop {acc s : Str} (hs : Stops s) (ha : acc ≠ []) : scanName acc s = (acc, s) := by
  cases s with
  | nil => rfl
  | cons c s =>
    unfold scanName
    have : isAlpha c = false := by
      cases h : isAlpha c with
      | false => rfl
      | true => exact absurd ((Override.isAlpha_iff c).1 h) (hs c rfl)
    simp [ha, this]

theorem scan_quiet {n : Str} : ∀ {acc s : Str}, quiet acc n = true → Stops s → acc ++ n ≠ [] → scanName acc (n ++ s) = (acc ++ n, s) := by
  induction n with
  | nil =>
    intro acc s _ hs ha
    rw [List.append_nil] at ha
    rw [List.nil_append, List.append_nil]
    exact scan_stop hs ha
  | cons c n ih =>
    intro acc s hq hs _
    simp only [quiet, Bool.and_eq_true, decide_eq_true_eq] at hq
    obtain ⟨⟨⟨h1, h2⟩, h3⟩, h4⟩ := hq
    rw [List.cons_append, scanName, if_neg (by simp [isDig_not_alpha h1]), if_pos h1, if_neg (by simp only [not_or]; exact ⟨h2, h3⟩)]
    rw [ih h4 hs (by simp)]
    simp

/-- A name that is read whole. -/
def readable : Str → Bool
  | [] => false
  | c :: n => (quiet [] (c :: n)) || (isDig c && quiet [c] n)

theorem scan_readable {n s : Str} (h : readable n = true) (hs : Stops s) : scanName [] (n ++ s) = (n, s) := by
  cases n with
  | nil => cases h
  | cons c n =>
    simp only [readable, Bool.or_eq_true, Bool.and_eq_true] at h
    rcases h with h | ⟨h1, h2⟩
    · exact scan_quiet h hs (by simp)
    · rw [List.cons_append, scanName, if_pos (by simp [h1])]
      exact scan_quiet h2 hs (by simp)

/-- A name that is handled as in the segmenter. -/
def shared (n : Str) : Bool :=
  readable n && decide (n ∉ ["fn".toList, "fe".toList, "r".toList, "pbo".toList, "kt".toList, "t".toList]) && decide (trim n ≠ [])

theorem number_sh : ∀ p ∈ numberTags, shared p.1 = true := by decide
theorem color_sh : ∀ p ∈ colorTags, shared p.1 = true := by decide
theorem alpha_sh : ∀ p ∈ alphaTags, shared p.1 = true := by decide
theorem flag_sh : ∀ p ∈ flagTags, shared p.1 = true := by decide
theorem byte_sh : ∀ p ∈ byteTags, shared p.1 = true := by decide
theorem karaoke_sh : ∀ p ∈ karaokeTags, shared p.1 = true := by decide

/-- How a tag is cut into name and argument: as by the segmenter. -/
theorem sets_cut {f32 : Str → Option Rat} {p : Str} {f : Field} {v : Val} (h : Sets f32 p f v) :
    (∃ n a, p = n ++ a ∧ extract p = .ok (n, a) ∧ shared n = true ∧ Stops a ∧ ((n = "frz".toList ∨ n = "fr".toList) ↔ f = .rotationZ)) ∨
    (∃ a, a ≠ [] ∧ p = "fn".toList ++ a ∧ f = .fontName ∧ v = .text a) := by
  cases h with
  | number n f a v h ha hc =>
    refine .inl ⟨n, a, rfl, extract_plain (number_ok _ h).1 hc, number_sh _ h, hc, ?_⟩
    have : ∀ p ∈ numberTags, ((p.1 = "frz".toList ∨ p.1 = "fr".toList) ↔ p.2 = .rotationZ) := by decide
    exact this _ h
  | color n f p pb pg pr b g r h hp hb hg hr =>
    refine .inl ⟨n, '&' :: 'H' :: p ++ ['&'], by simp, ?_, color_sh _ h, stops_amp _, ?_⟩
    · have := extract_name (color_ok _ h).1 (stops_amp ('H' :: p ++ ['&']))
      simpa using this
    · have : ∀ p ∈ colorTags, ((p.1 = "frz".toList ∨ p.1 = "fr".toList) ↔ p.2 = .rotationZ) := by decide
      exact this _ h
  | alpha n f p v h hp =>
    refine .inl ⟨n, '&' :: 'H' :: p ++ ['&'], by simp, ?_, alpha_sh _ h, stops_amp _, ?_⟩
    · have := extract_name (alpha_ok _ h).1 (stops_amp ('H' :: p ++ ['&']))
      simpa using this
    · have : ∀ p ∈ alphaTags, ((p.1 = "frz".toList ∨ p.1 = "fr".toList) ↔ p.2 = .rotationZ) := by decide
      exact this _ h
  | flag n f b h =>
    have hs : Stops [if b then '1' else '0'] := by intro c hc; simp at hc; subst hc; unfold Letter; cases b <;> decide
    refine .inl ⟨n, _, rfl, extract_plain (flag_ok _ h).1 hs, flag_sh _ h, hs, ?_⟩
    have : ∀ p ∈ flagTags, ((p.1 = "frz".toList ∨ p.1 = "fr".toList) ↔ p.2 = .rotationZ) := by decide
    exact this _ h
  | byte n f v h hv =>
    refine .inl ⟨n, _, rfl, extract_plain (byte_ok _ h).1 (stops_dec v), byte_sh _ h, stops_dec v, ?_⟩
    have : ∀ p ∈ byteTags, ((p.1 = "frz".toList ∨ p.1 = "fr".toList) ↔ p.2 = .rotationZ) := by decide
    exact this _ h
  | karaoke n k d h hd =>
    refine .inl ⟨n, _, rfl, extract_plain (karaoke_ok _ h).1 (stops_dec d), karaoke_sh _ h, stops_dec d, ?_⟩
    have : ∀ p ∈ karaokeTags, ¬ (p.1 = "frz".toList ∨ p.1 = "fr".toList) := by decide
    exact ⟨fun e => absurd e (this _ h), fun e => by cases e⟩
  | font a h => exact .inr ⟨a, h, rfl, rfl, rfl⟩
  | pos a b x y hx hy => exact .inl ⟨_, _, rfl, extract_plain (by decide) (stops_paren _), by decide, stops_paren _, by decide⟩
  | org a b x y hx hy => exact .inl ⟨_, _, rfl, extract_plain (by decide) (stops_paren _), by decide, stops_paren _, by decide⟩
  | move a b c d x1 y1 x2 y2 h1 h2 h3 h4 => exact .inl ⟨_, _, rfl, extract_plain (by decide) (stops_paren _), by decide, stops_paren _, by decide⟩
  | moveTimed a b c d x1 y1 x2 y2 t1 t2 h1 h2 h3 h4 ht1 ht2 =>
    exact .inl ⟨_, _, rfl, extract_plain (by decide) (stops_paren _), by decide, stops_paren _, by decide⟩
  | clip i a b c d x1 y1 x2 y2 h1 h2 h3 h4 =>
    cases i with
    | true => exact .inl ⟨"iclip".toList, _, rfl, extract_plain (by decide) (stops_paren _), by decide, stops_paren _, by decide⟩
    | false => exact .inl ⟨"clip".toList, _, rfl, extract_plain (by decide) (stops_paren _), by decide, stops_paren _, by decide⟩
  | fad i o hi ho => exact .inl ⟨_, _, rfl, extract_plain (by decide) (stops_paren _), by decide, stops_paren _, by decide⟩
  | fade a1 a2 a3 t1 t2 t3 t4 h1 h2 h3 h12 h34 g2 g4 =>
    exact .inl ⟨_, _, rfl, extract_plain (by decide) (stops_paren _), by decide, stops_paren _, by decide⟩

/-- What the second reader makes of an entry. -/
structure Does (f32 : Str → Option Rat) (e : Entry) (n a : Str) : Prop where
  text : e.text = n ++ a
  scan : ∀ rest, (rest = [] ∨ rest.head? = some '\\') → scanName [] (e.text ++ rest) = (n, a ++ rest)
  name : n ≠ [] ∧ trim n ≠ [] ∧ n ≠ "t".toList
  effect : ∀ p : Processed, p.start = none → ∃ q, single f32 n a p = .ok q ∧ q.tags = p.tags.setOpt e.field (some e.val) ∧
    q.angle = (if e.field = .rotationZ then f32 a else p.angle) ∧ (e.field = .rotationZ → (f32 a).map Val.number = some e.val) ∧
    q.encoding = p.encoding ∧ q.baseline = p.baseline ∧ q.start = none ∧ q.reset = p.reset ∧ q.breaks = p.breaks ∧ q.spaces = p.spaces

theorem stops_rest {a rest : Str} (h : Stops a) (hr : rest = [] ∨ rest.head? = some '\\') : Stops (a ++ rest) := by
  intro c hc
  cases a with
  | nil =>
    rcases hr with hr | hr
    · subst hr; cases hc
    · rw [List.nil_append, hr] at hc
      injection hc with hc
      subst hc
      unfold Letter; decide
  | cons d a => exact h c hc

theorem rotation_val {f32 : Str → Option Rat} {n a : Str} {f : Field} {v : Val} (h : Sets f32 (n ++ a) f v) (hn : extract (n ++ a) = .ok (n, a))
    (hf : f = .rotationZ) : (f32 a).map Val.number = some v := by
  generalize hp : n ++ a = p at h hn
  cases h with
  | number n' f a' v h ha hc =>
    have := extract_plain (number_ok _ h).1 hc
    rw [this] at hn
    injection hn with hn
    injection hn with _ e2
    rw [← e2, ha]; rfl
  | color n f p pb pg pr b g r h hp hb hg hr =>
    have : ∀ p ∈ colorTags, p.2 ≠ .rotationZ := by decide
    exact absurd hf (this _ h)
  | alpha n f p v h hp =>
    have : ∀ p ∈ alphaTags, p.2 ≠ .rotationZ := by decide
    exact absurd hf (this _ h)
  | flag n f b h =>
    have : ∀ p ∈ flagTags, p.2 ≠ .rotationZ := by decide
    exact absurd hf (this _ h)
  | byte n f v h hv =>
    have : ∀ p ∈ byteTags, p.2 ≠ .rotationZ := by decide
    exact absurd hf (this _ h)
  | _ => cases hf

theorem does_of {f32 : Str → Option Rat} {e : Entry} (h : Sets f32 e.text e.field e.val)
    (hf : ∀ a, e.text = "fn".toList ++ a → trim a = a) : ∃ n a, Does f32 e n a := by
  obtain ⟨n0, a0, he, hs⟩ := sets_ok h
  rcases sets_cut h with ⟨n, a, e1, e2, e3, e4, e5⟩ | ⟨a, e1, e2, e3, e4⟩
  · rw [e2] at he
    injection he with he
    injection he with x1 x2
    subst x1 x2
    unfold shared at e3
    simp only [Bool.and_eq_true, decide_eq_true_eq, List.mem_cons, List.not_mem_nil, or_false, not_or] at e3
    obtain ⟨⟨r1, r2, r3, r4, r5, r6, r7⟩, r8⟩ := e3
    refine ⟨n, a, e1, ?_, ⟨?_, r8, r7⟩, ?_⟩
    · intro rest hr
      rw [e1, List.append_assoc]
      exact scan_readable r1 (stops_rest e4 hr)
    · intro hn
      rw [hn] at r1
      cases r1
    · intro p hp
      have hrot : e.field = .rotationZ → (f32 a).map Val.number = some e.val := by
        rw [e1] at h e2
        exact rotation_val h e2
      refine ⟨⟨p.tags.setOpt e.field (some e.val), if n = "frz".toList ∨ n = "fr".toList then orKeep (f32 a) p.angle else p.angle, p.encoding, p.baseline,
        if (Segment.karaokeTag n).isSome ∧ (parseU32 a).isSome then none else p.start, p.reset, p.breaks, p.spaces⟩, ?_, rfl, ?_, hrot, rfl, rfl, ?_, rfl, rfl, rfl⟩
      · unfold single
        rw [if_neg r2, if_neg r3, if_neg r4, if_neg r5, if_neg r6]
        unfold common
        rw [hs]
      · show (if n = "frz".toList ∨ n = "fr".toList then orKeep (f32 a) p.angle else p.angle) = _
        by_cases hz : e.field = .rotationZ
        · rw [if_pos (e5.2 hz), if_pos hz]
          have := hrot hz
          cases hv : f32 a with
          | none => rw [hv] at this; cases this
          | some v => rfl
        · rw [if_neg (fun x => hz (e5.1 x)), if_neg hz]
      · show (if _ then none else p.start) = none
        rw [hp]
        split <;> rfl
  · refine ⟨"fn".toList, a, e2, ?_, by decide, ?_⟩
    · intro rest _
      rw [e2]
      rfl
    · intro p hp
      refine ⟨{ p with tags := p.tags.setOpt .fontName (some (.text (trim a))) }, rfl, ?_, ?_, ?_, rfl, rfl, hp, rfl, rfl, rfl⟩
      · rw [hf a e2, e3, e4]
      · rw [e3]; rfl
      · rw [e3]; intro x; cases x

theorem tagsText_head (l : List Str) : tagsText l = [] ∨ (tagsText l).head? = some '\\' := by
  cases l with
  | nil => exact .inl rfl
  | cons p l => exact .inr rfl

theorem takeWhile_all {a rest : Str} (h : '\\' ∉ a) (hr : rest = [] ∨ rest.head? = some '\\') :
    (a ++ rest).takeWhile (· ≠ '\\') = a ∧ (a ++ rest).dropWhile (· ≠ '\\') = rest := by
  induction a with
  | nil =>
    rcases hr with rfl | hr
    · exact ⟨rfl, rfl⟩
    · cases rest with
      | nil => cases hr
      | cons c rest =>
        injection hr with hr
        subst hr
        exact ⟨rfl, rfl⟩
  | cons c a ih =>
    have hc : c ≠ '\\' := fun e => h (by simp [e])
    obtain ⟨i1, i2⟩ := ih (fun e => h (by simp [e]))
    constructor
    · rw [List.cons_append, List.takeWhile_cons_of_pos (by simpa using hc), i1]
    · rw [List.cons_append, List.dropWhile_cons_of_pos (by simpa using hc), i2]

/-- The entries are read as tags with these effects. -/
inductive Acts (f32 : Str → Option Rat) : List Entry → List Tag → Prop
  | nil : Acts f32 [] []
  | cons (e l t ts) (h : Does f32 e t.name t.args) (hs : Acts f32 l ts) : Acts f32 (e :: l) (t :: ts)

theorem Acts.append {f32 : Str → Option Rat} {l m : List Entry} {ts us : List Tag} (h : Acts f32 l ts) (h' : Acts f32 m us) : Acts f32 (l ++ m) (ts ++ us) := by
  induction h with
  | nil => exact h'
  | cons e l t ts h _ ih => exact .cons _ _ _ _ h ih

theorem blockLoop_acts {f32 : Str → Option Rat} (l : List Entry) : ∀ (k pos : Nat), (blockText l).length ≤ k → Good f32 l →
    (∀ e ∈ l, ∀ a, e.text = "fn".toList ++ a → trim a = a) →
    ∃ o, blockLoop k pos (blockText l) = .ok o ∧ Acts f32 l o.tags := by
  induction l with
  | nil => intro k pos _ _ _; exact ⟨⟨[], []⟩, by cases k <;> rfl, .nil⟩
  | cons e l ih =>
    intro k pos hk hg hf
    obtain ⟨n, a, hd⟩ := does_of (hg e (by simp)).1 (hf e (by simp))
    have hbs : '\\' ∉ a := fun hm => (hg e (by simp)).2.1 (by rw [hd.text]; exact List.mem_append_right _ hm)
    have hb : blockText (e :: l) = '\\' :: (e.text ++ blockText l) := by
      unfold blockText
      rw [List.map_cons, tagsText]; rfl
    rw [hb] at hk ⊢
    cases k with
    | zero => simp at hk
    | succ k =>
      have hsc := hd.scan (blockText l) (tagsText_head _)
      obtain ⟨w1, w2⟩ := takeWhile_all hbs (tagsText_head (l.map (·.text)))
      have hargs : scanArgs n (a ++ blockText l) = (a, blockText l) := by
        unfold scanArgs
        split
        · rw [if_neg hd.name.2.2]
          show ((a ++ blockText l).takeWhile (· ≠ '\\'), (a ++ blockText l).dropWhile (· ≠ '\\')) = _
          unfold blockText
          rw [w1, w2]
        · show ((a ++ blockText l).takeWhile (· ≠ '\\'), (a ++ blockText l).dropWhile (· ≠ '\\')) = _
          unfold blockText
          rw [w1, w2]
      obtain ⟨o, h1, h2⟩ := ih k (pos + 1 + byteLen n + byteLen a) (by simp at hk; omega) (fun x hx => hg x (List.mem_cons_of_mem _ hx))
        (fun x hx => hf x (List.mem_cons_of_mem _ hx))
      refine ⟨⟨⟨n, a, pos⟩ :: o.tags, o.diags⟩, ?_, .cons _ _ _ _ hd h2⟩
      rw [blockLoop, if_pos rfl, hsc]
      dsimp only
      rw [if_pos hd.name.1, hargs]
      dsimp only
      rw [if_neg hd.name.2.1, h1]
      rfl

theorem all_acts {f32 : Str → Option Rat} {l : List Entry} {ts : List Tag} (h : Acts f32 l ts) : ∀ p : Processed, p.start = none →
    (p.tags.vals.get .rotationZ = p.angle.map Val.number) →
    ∃ q, all f32 ts p = .ok q ∧ q.tags.transforms = p.tags.transforms ∧
      (∀ f, valueOf q.tags f = (lastSet f (l.map (fun e => (e.field, e.val)))).or (valueOf p.tags f)) ∧
      q.tags.vals.get .rotationZ = q.angle.map Val.number ∧ q.encoding = p.encoding ∧ q.baseline = p.baseline ∧ q.start = none ∧ q.reset = p.reset ∧
      q.breaks = p.breaks ∧ q.spaces = p.spaces := by
  induction h with
  | nil => intro p hp hr; exact ⟨p, rfl, rfl, fun f => rfl, hr, rfl, rfl, hp, rfl, rfl, rfl⟩
  | cons e l t ts h hs ih =>
    intro p hp hr
    obtain ⟨q, h1, h2, h3, h4, h5, h6, h7, h8, h9, h10⟩ := h.effect p hp
    have hq : q.tags.vals.get .rotationZ = q.angle.map Val.number := by
      rw [h2, h3]
      show Map.get (Map.insert _ _ _) _ = _
      by_cases hz : e.field = .rotationZ
      · rw [hz, Map.get_insert_self, if_pos rfl, h4 hz]
      · rw [Map.get_insert_ne (fun x => hz x.symm), if_neg hz, hr]
    obtain ⟨r, g1, g2, g3, g4, g5, g6, g7, g8, g9, g10⟩ := ih q h7 hq
    refine ⟨r, ?_, ?_, ?_, g4, by rw [g5, h5], by rw [g6, h6], g7, by rw [g8, h8], by rw [g9, h9], by rw [g10, h10]⟩
    · rw [all, h1]; exact g1
    · rw [g2, h2, setOpt_transforms]
    · intro f
      rw [g3, h2, read_setOpt, List.map_cons, lastSet]
      cases lastSet f (l.map (fun e => (e.field, e.val))) with
      | some v => rfl
      | none =>
        by_cases hf : f = e.field
        · simp [hf]
        · have : ¬ e.field = f := fun x => hf x.symm
          simp [hf, this]

end Verif.TagProc
